import Verif.Reducers.Lemmas
import Verif.Agg.Props

/-!
# Properties C36 to C41 (and the initialisation hypotheses of C33, C34)

`outcome` is the result of one reduce over all rows, `Reach ... x vs` says that the rows passing its
filter give the expression the values `vs` (`Verif/Reducers/Spec.lean`).
-/

set_option autoImplicit false

namespace Verif.Reducers

open Verif

variable {R V E : Type}

/-! ## Concrete values for the sample cases -/

/-- Integers and `None`. -/
def demo : Ops (Option Int) String where
  isNone := fun v => v.isNone
  none := none
  truthy := fun v => match v with | some n => decide (n ≠ 0) | none => false
  zero := some 0
  add := fun a b => match a, b with | some a, some b => .ok (some (a + b)) | _, _ => .error "TypeError"
  gt := fun a b => match a, b with | some a, some b => .ok (decide (a > b)) | _, _ => .error "TypeError"
  lt := fun a b => match a, b with | some a, some b => .ok (decide (a < b)) | _, _ => .error "TypeError"
  typeError := "TypeError"

def demoInts : Ints demo where
  ofInt := some
  ofInt_inj := fun a b h => by simpa using h
  zero := rfl
  notNone := fun _ => rfl
  none := rfl
  noneUnique := fun v h => by cases v <;> simp_all [demo]
  noneFalsy := rfl
  truthy := fun _ => rfl
  add := fun _ _ => rfl

/-- Rows of two fields. -/
abbrev Row := Option Int × Option Int

/-- Meaning of the sample conditions. -/
def demoCond : String → Row → Except String Bool
  | "first > 1", row => match row.1 with | some x => .ok (decide (x > 1)) | none => .ok false
  | _, _ => .ok true

/-- The first field of a row. -/
def fst : Row → Except String (Option Int) := fun r => .ok r.1

/-- The second field of a row. -/
def snd : Row → Except String (Option Int) := fun r => .ok r.2

/-- Sample rows. -/
def demoRows : List Row := [(some 2, some 7), (some 1, none), (some 3, some 0), (some 2, some 9)]

/-! ## How results are shown -/

theorem resultOf_accum {A : Type} (rd : Reducer V E) (default : Option (Slot V)) (own : Slot V)
    (hown : rd.default = some own) (g : List A → Slot V) (post : Slot V → Slot V)
    (as : List A) (hpost : as ≠ [] → rd.post (g as) = .ok (post (g as))) :
    resultOf rd default (accum g as) = .ok (some (shown as default own (post (g as)))) := by
  cases as with
  | nil => cases default <;> simp [resultOf, accum, shown, hown]
  | cons a as => simp [resultOf, accum, shown, hpost]

theorem shown_map {A B : Type} (as : List A) (f : A → B) (default : Option (Slot V))
    (own s : Slot V) : shown (as.map f) default own s = shown as default own s := by
  cases as <;> rfl

/-- The outcome of a one-argument reducer described by a function of the values. -/
theorem outcome_accum (condSem : String → R → Except E Bool) (rd : Reducer V E) (hr : OneArg rd)
    (default : Option (Slot V)) (own : Slot V) (hown : rd.default = some own)
    (hash : String) (cond : Option String) (x y : R → Except E V)
    (rows : List R) (vs : List V) (hreach : Reach condSem cond rows x vs)
    (P : V → Prop) (hP : ∀ v ∈ vs, P v) (g : List V → Slot V) (post : Slot V → Slot V)
    (hpost : ∀ vs, vs ≠ [] → rd.post (g vs) = .ok (post (g vs)))
    (h1 : ∀ v, P v → rd.first none (.ok v) (.ok v) = .ok (some (g [v])))
    (h2 : ∀ vs v, vs ≠ [] → P v → (∀ w ∈ vs, P w) →
      rd.reduce (some (g vs)) (some (g vs)) (.ok v) (.ok v) = .ok (some (g (vs ++ [v])))) :
    outcome condSem rd default hash cond none x y rows =
      .ok (some (shown vs default own (post (g vs)))) := by
  rw [outcome_one condSem rd hr default hash cond x y rows vs hreach]
  rw [foldPairs_accum rd (fun p => P p.1 ∧ p.2 = p.1) (fun ps => g (ps.map Prod.fst))]
  · simp only
    rw [resultOf_accum rd default own hown (fun ps => g (ps.map Prod.fst)) post]
    · simp only [List.map_map, shown_map]
      congr 5
      simp [Function.comp_def]
    · intro hne
      exact hpost _ (by simpa using hne)
  · rintro ⟨a, b⟩ ⟨ha, hb⟩
    simp only at ha hb
    subst hb
    exact h1 _ ha
  · rintro ps ⟨a, b⟩ hne ⟨ha, hb⟩ hps
    simp only at ha hb
    subst hb
    have := h2 (ps.map Prod.fst) b (by simpa using hne) ha (by
      intro w hw
      obtain ⟨q, hq, rfl⟩ := List.mem_map.1 hw
      exact (hps q hq).1)
    simpa using this
  · intro p hp
    obtain ⟨v, hv, rfl⟩ := List.mem_map.1 hp
    exact ⟨hP v hv, rfl⟩

/-! ## C36: Sum, SumOrNone -/

theorem orZero_counts {ops : Ops V E} (I : Ints ops) (v : V) (n : Int) (h : Counts I v n) :
    ops.orZero v = I.ofInt n := by
  unfold Ops.orZero
  rcases h with rfl | ⟨h, rfl⟩
  · rw [I.truthy]
    by_cases hn : n = 0
    · subst hn; simp [I.zero]
    · simp [hn]
  · simp [h, I.zero]

/-- **C36.** `Sum` is the sum of the values, falsy values counting as 0; 0 (or the given default)
for no rows. -/
theorem C36_sum {ops : Ops V E} (I : Ints ops) (condSem : String → R → Except E Bool)
    (default : Option (Slot V)) (hash : String) (cond : Option String) (x y : R → Except E V)
    (rows : List R) (vs : List V) (hreach : Reach condSem cond rows x vs)
    (n : V → Int) (hn : ∀ v ∈ vs, Counts I v (n v)) :
    outcome condSem (sum ops) default hash cond none x y rows =
      .ok (some (shown vs default (.val (I.ofInt 0)) (.val (I.ofInt ((vs.map n).sum))))) := by
  refine outcome_accum condSem (sum ops) ⟨fun _ _ _ _ _ => rfl, fun _ _ _ _ => rfl⟩ default
    (.val (I.ofInt 0)) ?_ hash cond x y rows vs hreach (fun v => Counts I v (n v)) hn
    (fun vs => .val (I.ofInt ((vs.map n).sum))) id ?_ ?_ ?_
  · simp [sum, I.zero]
  · intro vs _; rfl
  · intro v hv
    simp [sum, orZero_counts I v _ hv]
  · intro vs v _ hv _
    simp [sum, orZero_counts I v _ hv, I.add]

/-- `sum([2, 3, 2])` of the first field, of the rows with `first > 1` only. -/
example : outcome demoCond (sum demo) none "h" (some "first > 1") none fst snd demoRows =
    .ok (some (.val (some 7))) := by rfl

example : Reach demoCond (some "first > 1") demoRows fst [some 2, some 3, some 2] ∧
    ∀ v ∈ [some (2 : Int), some 3, some 2], Counts demoInts v (v.getD 0) := by
  refine ⟨⟨[(some 2, some 7), (some 3, some 0), (some 2, some 9)], rfl, rfl⟩, ?_⟩
  intro v hv
  simp only [List.mem_cons, List.not_mem_nil, or_false] at hv
  rcases hv with rfl | rfl | rfl <;> exact Or.inl rfl

/-- `None` counts as 0. -/
example : outcome demoCond (sum demo) none "h" none none snd fst demoRows =
    .ok (some (.val (some 16))) := by rfl

/-- **C36.** `SumOrNone` is `None` if one value is, otherwise the sum; `None` for no rows. -/
theorem C36_sum_or_none {ops : Ops V E} (I : Ints ops) (condSem : String → R → Except E Bool)
    (default : Option (Slot V)) (hash : String) (cond : Option String) (x y : R → Except E V)
    (rows : List R) (vs : List V) (hreach : Reach condSem cond rows x vs)
    (n : V → Int) (hn : ∀ v ∈ vs, ops.isNone v = true ∨ v = I.ofInt (n v)) :
    outcome condSem (sumOrNone ops) default hash cond none x y rows =
      .ok (some (shown vs default (.val ops.none)
        (.val (if vs.any ops.isNone then ops.none else I.ofInt ((vs.map n).sum))))) := by
  refine outcome_accum condSem (sumOrNone ops) ⟨fun _ _ _ _ _ => rfl, fun _ _ _ _ => rfl⟩ default
    (.val ops.none) rfl hash cond x y rows vs hreach
    (fun v => ops.isNone v = true ∨ v = I.ofInt (n v)) hn
    (fun vs => .val (if vs.any ops.isNone then ops.none else I.ofInt ((vs.map n).sum))) id ?_ ?_ ?_
  · intro vs _; rfl
  · intro v hv
    by_cases h : ops.isNone v = true
    · simp [sumOrNone, h, I.noneUnique v h, I.none]
    · rcases hv with hv | hv
      · exact absurd hv h
      · have h' : ops.isNone v = false := by simpa using h
        simp [sumOrNone, h', ← hv]
  · intro vs v _ hv _
    by_cases h : ops.isNone v = true
    · simp [sumOrNone, h]
    · have h' : ops.isNone v = false := by simpa using h
      rcases hv with hv | hv
      · exact absurd hv h
      · by_cases ha : vs.any ops.isNone = true
        · simp [sumOrNone, addSlot, h', ha, I.none]
        · have ha' : vs.any ops.isNone = false := by simpa using ha
          have := I.add (vs.map n).sum (n v)
          rw [← hv] at this
          simp [sumOrNone, addSlot, h', ha', I.notNone, this]

example : outcome demoCond (sumOrNone demo) none "h" none none snd fst demoRows =
    .ok (some (.val none)) := by rfl

example : outcome demoCond (sumOrNone demo) none "h" (some "first > 1") none snd fst demoRows =
    .ok (some (.val (some 16))) := by rfl

/-! ## C37: Max, Min, MaxRow, MinRow -/

/-- `Max` / `Min` with comparison `cmp`. -/
theorem extreme_best (ops : Ops V E) (cmp : V → V → Except E Bool) {P : V → Prop}
    {better : V → V → Prop} (o : Order P cmp better) (condSem : String → R → Except E Bool)
    (default : Option (Slot V)) (hash : String) (cond : Option String) (x y : R → Except E V)
    (rows : List R) (vs : List V) (hreach : Reach condSem cond rows x vs)
    (hP : ∀ v ∈ vs, ops.isNone v = false → P v) :
    ∃ m, (vs.filter (fun v => !ops.isNone v) ≠ [] →
        FirstBest better (vs.filter (fun v => !ops.isNone v)) m) ∧
      outcome condSem (extreme ops cmp) default hash cond none x y rows =
        .ok (some (shown (vs.filter (fun v => !ops.isNone v)) default (.val ops.none) (.val m))) := by
  refine ⟨bestOf cmp ops.none (vs.filter (fun v => !ops.isNone v)), ?_, ?_⟩
  · intro h
    refine bestOf_best o _ _ h ?_
    intro v hv
    rw [List.mem_filter] at hv
    exact hP v hv.1 (by simpa using hv.2)
  · rw [outcome_one condSem (extreme ops cmp) ⟨fun _ _ _ _ _ => rfl, fun _ _ _ _ => rfl⟩ default hash
      cond x y rows vs hreach]
    rw [foldPairs_skip (extreme ops cmp) (fun p => ops.isNone p.1)
      (fun p hp => by simp [extreme, hp]) (fun p s hp => by simp [extreme, hp])]
    rw [foldPairs_accum (extreme ops cmp) (fun p => P p.1 ∧ ops.isNone p.1 = false)
      (fun ps => .val (bestOf cmp ops.none (ps.map Prod.fst)))]
    · simp only
      rw [resultOf_accum (extreme ops cmp) default (.val ops.none) rfl
        (fun ps : List (V × V) => .val (bestOf cmp ops.none (ps.map Prod.fst))) id _ (fun _ => rfl)]
      rw [List.filter_map]
      simp only [shown_map, List.map_map, id]
      congr 5
      simp [Function.comp_def]
    · intro p hp
      simp [extreme, hp.2, bestOf, pick]
    · intro ps p hne hp hps
      have hne' : ps.map Prod.fst ≠ [] := by simpa using hne
      have hb : P (bestOf cmp ops.none (ps.map Prod.fst)) := by
        have := bestOf_mem cmp ops.none _ hne'
        obtain ⟨q, hq, hq'⟩ := List.mem_map.1 this
        rw [← hq']
        exact (hps q hq).1
      have hc := (o.holds_iff _ _ hp.1 hb).2
      simp only [extreme, hp.2, cmpSlot, hc, List.map_append, List.map_cons, List.map_nil,
        bestOf_snoc cmp ops.none _ p.1 hne', Bool.false_eq_true, if_false]
      cases holds cmp p.1 (bestOf cmp ops.none (ps.map Prod.fst)) <;> rfl
    · intro p hp
      rw [List.mem_filter] at hp
      obtain ⟨v, hv, rfl⟩ := List.mem_map.1 hp.1
      have hn : ops.isNone v = false := by simpa using hp.2
      exact ⟨hP v hv hn, hn⟩

/-- **C37.** `Max` is a maximal non-`None` value (the first one); `None`, or the given default, if
there is none.  The non-`None` values have to be comparable. -/
theorem C37_max (ops : Ops V E) {P : V → Prop} {greater : V → V → Prop}
    (o : Order P ops.gt greater) (condSem : String → R → Except E Bool)
    (default : Option (Slot V)) (hash : String) (cond : Option String) (x y : R → Except E V)
    (rows : List R) (vs : List V) (hreach : Reach condSem cond rows x vs)
    (hP : ∀ v ∈ vs, ops.isNone v = false → P v) :
    ∃ m, (vs.filter (fun v => !ops.isNone v) ≠ [] →
        FirstBest greater (vs.filter (fun v => !ops.isNone v)) m) ∧
      outcome condSem (max ops) default hash cond none x y rows =
        .ok (some (shown (vs.filter (fun v => !ops.isNone v)) default (.val ops.none) (.val m))) :=
  extreme_best ops ops.gt o condSem default hash cond x y rows vs hreach hP

/-- **C37.** `Min` is a minimal non-`None` value (the first one). -/
theorem C37_min (ops : Ops V E) {P : V → Prop} {less : V → V → Prop}
    (o : Order P ops.lt less) (condSem : String → R → Except E Bool)
    (default : Option (Slot V)) (hash : String) (cond : Option String) (x y : R → Except E V)
    (rows : List R) (vs : List V) (hreach : Reach condSem cond rows x vs)
    (hP : ∀ v ∈ vs, ops.isNone v = false → P v) :
    ∃ m, (vs.filter (fun v => !ops.isNone v) ≠ [] →
        FirstBest less (vs.filter (fun v => !ops.isNone v)) m) ∧
      outcome condSem (min ops) default hash cond none x y rows =
        .ok (some (shown (vs.filter (fun v => !ops.isNone v)) default (.val ops.none) (.val m))) :=
  extreme_best ops ops.lt o condSem default hash cond x y rows vs hreach hP

/-- The integers are ordered in the sense of `Order` by both comparisons. -/
theorem demo_gt : Order (fun v => v.isSome = true) demo.gt
    (fun a b : Option Int => a.getD 0 > b.getD 0) where
  total := by
    intro a b ha hb
    cases a <;> cases b <;> simp_all [demo]
    omega
  trans := by intro a b c _ _ _ h1 h2; omega
  weak := by intro a b c _ _ _ h; omega

theorem demo_lt : Order (fun v => v.isSome = true) demo.lt
    (fun a b : Option Int => a.getD 0 < b.getD 0) where
  total := by
    intro a b ha hb
    cases a <;> cases b <;> simp_all [demo]
    omega
  trans := by intro a b c _ _ _ h1 h2; omega
  weak := by intro a b c _ _ _ h; omega

example : outcome demoCond (max demo) none "h" none none snd fst demoRows =
    .ok (some (.val (some 9))) := by rfl

example : outcome demoCond (min demo) none "h" none none snd fst demoRows =
    .ok (some (.val (some 0))) := by rfl

/-- `MaxRow` / `MinRow`, where `cmp m v` asks whether `v` is better. -/
theorem extremeRow_best (ops : Ops V E) (cmp : V → V → Except E Bool) {P : V → Prop}
    {better : V → V → Prop} (o : Order P (fun v m => cmp m v) better)
    (condSem : String → R → Except E Bool)
    (default : Option (Slot V)) (hash : String) (cond : Option String) (x y : R → Except E V)
    (rows : List R) (ps : List (V × V)) (hreach : Reach2 condSem cond rows x y ps)
    (hP : ∀ p ∈ ps, ops.isNone p.1 = false → P p.1) :
    ∃ m, (ps.filter (fun p => !ops.isNone p.1) ≠ [] →
        FirstBest (fun a b => better a.1 b.1) (ps.filter (fun p => !ops.isNone p.1)) m) ∧
      outcome condSem (extremeRow ops cmp) default hash cond none x y rows =
        .ok (some (shown (ps.filter (fun p => !ops.isNone p.1)) default (.val ops.none)
          (.val m.2))) := by
  rw [outcome_two condSem (extremeRow ops cmp) default hash cond x y rows ps hreach]
  rw [foldPairs_skip (extremeRow ops cmp) (fun p => ops.isNone p.1)
    (fun p hp => by simp [extremeRow, hp]) (fun p s hp => by simp [extremeRow, hp])]
  have hall : ∀ p ∈ ps.filter (fun p => !ops.isNone p.1), P p.1 ∧ ops.isNone p.1 = false := by
    intro p hp
    rw [List.mem_filter] at hp
    have hn : ops.isNone p.1 = false := by simpa using hp.2
    exact ⟨hP p hp.1 hn, hn⟩
  revert hall
  generalize ps.filter (fun p => !ops.isNone p.1) = qs
  intro hall
  rw [foldPairs_accum (extremeRow ops cmp) (fun p => P p.1 ∧ ops.isNone p.1 = false)
    (fun ps => match ps with
      | [] => .val ops.none
      | p :: ps => .row (bestPair (fun v m => cmp m v) p ps).1
          (bestPair (fun v m => cmp m v) p ps).2) _ _ qs hall]
  · cases qs with
    | nil => exact ⟨(ops.none, ops.none), fun h => absurd rfl h, by
        cases default <;> simp [resultOf, accum, shown, extremeRow]⟩
    | cons q qs =>
      refine ⟨bestPair (fun v m => cmp m v) q qs, fun _ => ?_, ?_⟩
      · exact bestPair_best o q qs (fun p hp => (hall p hp).1)
      · simp [resultOf, accum, shown, extremeRow]
  · intro p hp
    simp [extremeRow, hp.2, bestPair, pick]
  · intro ps p hne hp hps
    cases ps with
    | nil => exact absurd rfl hne
    | cons q ps =>
      have hm := pick_mem (fun a b : V × V => holds (fun v m => cmp m v) a.1 b.1) q ps
      have hb := (hps _ hm).1
      have hc := (o.holds_iff _ _ hp.1 hb).2
      simp only [extremeRow, hp.2, Bool.false_eq_true, if_false, List.cons_append, bestPair,
        pick_snoc]
      rw [hc]
      cases holds (fun v m => cmp m v) p.1
        (pick (fun a b : V × V => holds (fun v m => cmp m v) a.1 b.1) q ps).1 <;> rfl

/-- **C37.** `MaxRow` is the row of the first maximal non-`None` value.  The pairs are the value of
the expression and the row itself. -/
theorem C37_max_row (ops : Ops V E) {P : V → Prop} {greater : V → V → Prop}
    (o : Order P (fun v m => ops.lt m v) greater) (condSem : String → R → Except E Bool)
    (default : Option (Slot V)) (hash : String) (cond : Option String) (x y : R → Except E V)
    (rows : List R) (ps : List (V × V)) (hreach : Reach2 condSem cond rows x y ps)
    (hP : ∀ p ∈ ps, ops.isNone p.1 = false → P p.1) :
    ∃ m, (ps.filter (fun p => !ops.isNone p.1) ≠ [] →
        FirstBest (fun a b => greater a.1 b.1) (ps.filter (fun p => !ops.isNone p.1)) m) ∧
      outcome condSem (maxRow ops) default hash cond none x y rows =
        .ok (some (shown (ps.filter (fun p => !ops.isNone p.1)) default (.val ops.none)
          (.val m.2))) :=
  extremeRow_best ops ops.lt o condSem default hash cond x y rows ps hreach hP

/-- **C37.** `MinRow` is the row of the first minimal non-`None` value. -/
theorem C37_min_row (ops : Ops V E) {P : V → Prop} {less : V → V → Prop}
    (o : Order P (fun v m => ops.gt m v) less) (condSem : String → R → Except E Bool)
    (default : Option (Slot V)) (hash : String) (cond : Option String) (x y : R → Except E V)
    (rows : List R) (ps : List (V × V)) (hreach : Reach2 condSem cond rows x y ps)
    (hP : ∀ p ∈ ps, ops.isNone p.1 = false → P p.1) :
    ∃ m, (ps.filter (fun p => !ops.isNone p.1) ≠ [] →
        FirstBest (fun a b => less a.1 b.1) (ps.filter (fun p => !ops.isNone p.1)) m) ∧
      outcome condSem (minRow ops) default hash cond none x y rows =
        .ok (some (shown (ps.filter (fun p => !ops.isNone p.1)) default (.val ops.none)
          (.val m.2))) :=
  extremeRow_best ops ops.gt o condSem default hash cond x y rows ps hreach hP

/-- The first of the two rows with the greatest first field wins. -/
example : outcome demoCond (maxRow demo) none "h" none none fst snd
    [(some 2, some 7), (none, some 8), (some 3, some 1), (some 3, some 2)] =
    .ok (some (.val (some 1))) := by rfl

example : outcome demoCond (minRow demo) none "h" none none fst snd
    [(some 2, some 7), (none, some 8), (some 3, some 1), (some 2, some 2)] =
    .ok (some (.val (some 7))) := by rfl

example : Reach2 demoCond none [((some 2, some 7) : Row), (none, some 8)] fst snd
    [(some 2, some 7), (none, some 8)] := ⟨_, rfl, rfl⟩

/-! ## C38 -/

/-- **C38.** `Count` is the number of rows reaching the reduce; its expression is never evaluated,
so nothing is assumed of it. -/
theorem C38_count (ops : Ops V E) (condSem : String → R → Except E Bool)
    (default : Option (Slot V)) (hash : String) (cond : Option String) (x y : R → Except E V)
    (rows kept : List R) (hkept : Agg.passing condSem cond rows = .ok kept) :
    outcome condSem (count ops) default hash cond none x y rows =
      .ok (some (shown kept default (.num 0) (.num kept.length))) := by
  have h1' : Agg.passing condSem (redOf (count ops) hash cond none x y).cond rows = .ok kept := hkept
  have key : ∀ (zs : List (Except E V × Except E V)) (m : Nat),
      foldPairs (count ops) (some (.num m)) zs = .ok (some (.num (m + zs.length))) := by
    intro zs
    induction zs with
    | nil => intro m; rfl
    | cons z zs ih =>
      intro m
      simp only [foldPairs, count] at ih ⊢
      rw [ih]
      simp only [List.length_cons, Except.ok.injEq, Option.some.injEq, Slot.num.injEq]
      omega
  simp only [outcome, Agg.alone, h1']
  rw [foldRows_redOf]
  cases kept with
  | nil => cases default <;> rfl
  | cons r kept =>
    rw [List.map_cons]
    have : foldPairs (count ops) none ((x r, y r) :: kept.map (fun r => (x r, y r))) =
        foldPairs (count ops) (some (.num 1)) (kept.map (fun r => (x r, y r))) := rfl
    rw [this, key]
    simp [resultOf, count, noPost, shown, Nat.add_comm]

example : outcome demoCond (count demo) none "h" (some "first > 1") none fst snd demoRows =
    .ok (some (.num 3)) := by rfl

/-- **C38.** `CountDistinct` is the number of distinct values. -/
theorem C38_count_distinct [BEq V] [EquivBEq V] (ops : Ops V E)
    (condSem : String → R → Except E Bool)
    (default : Option (Slot V)) (hash : String) (cond : Option String) (x y : R → Except E V)
    (rows : List R) (vs : List V) (hreach : Reach condSem cond rows x vs) :
    outcome condSem (countDistinct ops) default hash cond none x y rows =
      .ok (some (shown vs default (.num 0) (.num (Agg.firstSeen vs).length))) := by
  refine outcome_accum condSem (countDistinct ops) ⟨?_, fun _ _ _ _ => rfl⟩ default
    (.num 0) rfl hash cond x y rows vs hreach (fun _ => True) (by simp)
    (fun vs => .set (Agg.firstSeen vs))
    (fun s => match s with | .set l => .num l.length | s => s) ?_ ?_ ?_
  · intro r a x y y'; rfl
  · intro vs _; rfl
  · intro v _; rfl
  · intro vs v _ _ _
    simp [countDistinct, insertKey_firstSeen]

example : outcome demoCond (countDistinct demo) none "h" none none fst snd demoRows =
    .ok (some (.num 3)) := by rfl

/-- **C38.** `First` is the first value. -/
theorem C38_first (ops : Ops V E) (condSem : String → R → Except E Bool)
    (default : Option (Slot V)) (hash : String) (cond : Option String) (x y : R → Except E V)
    (rows : List R) (vs : List V) (hreach : Reach condSem cond rows x vs) :
    outcome condSem (firstR ops) default hash cond none x y rows =
      .ok (some (shown vs default (.val ops.none) (.val (vs.head?.getD ops.none)))) := by
  refine outcome_accum condSem (firstR ops) ⟨fun _ _ _ _ _ => rfl, fun _ _ _ _ => rfl⟩ default
    (.val ops.none) rfl hash cond x y rows vs hreach (fun _ => True) (by simp)
    (fun vs => .val (vs.head?.getD ops.none)) id ?_ ?_ ?_
  · intro vs _; rfl
  · intro v _; rfl
  · intro vs v hne _ _
    cases vs with
    | nil => exact absurd rfl hne
    | cons w vs => rfl

example : outcome demoCond (firstR demo) none "h" (some "first > 1") none fst snd demoRows =
    .ok (some (.val (some 2))) := by rfl

/-- **C38.** `Last` is the last value. -/
theorem C38_last (ops : Ops V E) (condSem : String → R → Except E Bool)
    (default : Option (Slot V)) (hash : String) (cond : Option String) (x y : R → Except E V)
    (rows : List R) (vs : List V) (hreach : Reach condSem cond rows x vs) :
    outcome condSem (lastR ops) default hash cond none x y rows =
      .ok (some (shown vs default (.val ops.none) (.val (vs.getLast?.getD ops.none)))) := by
  refine outcome_accum condSem (lastR ops) ⟨fun _ _ _ _ _ => rfl, fun _ _ _ _ => rfl⟩ default
    (.val ops.none) rfl hash cond x y rows vs hreach (fun _ => True) (by simp)
    (fun vs => .val (vs.getLast?.getD ops.none)) id ?_ ?_ ?_
  · intro vs _; rfl
  · intro v _; rfl
  · intro vs v _ _ _
    simp [lastR]

example : outcome demoCond (lastR demo) none "h" none none snd fst demoRows =
    .ok (some (.val (some 9))) := by rfl

/-- **C38.** `Array` is the list of all values in order. -/
theorem C38_array (ops : Ops V E) (condSem : String → R → Except E Bool)
    (default : Option (Slot V)) (hash : String) (cond : Option String) (x y : R → Except E V)
    (rows : List R) (vs : List V) (hreach : Reach condSem cond rows x vs) :
    outcome condSem (array ops) default hash cond none x y rows =
      .ok (some (shown vs default (.val ops.none) (.list vs))) := by
  refine outcome_accum condSem (array ops) ⟨?_, fun _ _ _ _ => rfl⟩ default
    (.val ops.none) rfl hash cond x y rows vs hreach (fun _ => True) (by simp)
    (fun vs => .list vs) id ?_ ?_ ?_
  · intro r a x y y'; rfl
  · intro vs _; rfl
  · intro v _; rfl
  · intro vs v _ _ _; rfl

example : outcome demoCond (array demo) none "h" none none snd fst demoRows =
    .ok (some (.list [some 7, none, some 0, some 9])) := by rfl

/-- **C38.** `ArrayDistinct` is the list of distinct values in order of first appearance. -/
theorem C38_array_distinct [BEq V] [EquivBEq V] (ops : Ops V E)
    (condSem : String → R → Except E Bool)
    (default : Option (Slot V)) (hash : String) (cond : Option String) (x y : R → Except E V)
    (rows : List R) (vs : List V) (hreach : Reach condSem cond rows x vs) :
    outcome condSem (arrayDistinct ops) default hash cond none x y rows =
      .ok (some (shown vs default (.val ops.none) (.list (Agg.firstSeen vs)))) := by
  refine Eq.trans (outcome_accum condSem (arrayDistinct ops) ⟨?_, fun _ _ _ _ => rfl⟩ default
    (.val ops.none) rfl hash cond x y rows vs hreach (fun _ => True) (by simp)
    (fun vs => .dict ((Agg.firstSeen vs).map fun v => (v, ops.none)))
    (fun s => match s with | .dict d => .list (d.map (·.1)) | s => s) ?_ ?_ ?_)
    (by simp [Function.comp_def])
  · intro r a x y y'; rfl
  · intro vs _; rfl
  · intro v _; rfl
  · intro vs v _ _ _
    simp [arrayDistinct, set_keys, insertKey_firstSeen]

example : outcome demoCond (arrayDistinct demo) none "h" none none fst snd demoRows =
    .ok (some (.list [some 2, some 1, some 3])) := by rfl

/-- On no rows: 0, 0, `None`, `None`, `None`, `None`. -/
example (rd : Reducer (Option Int) String)
    (h : rd ∈ [count demo, countDistinct demo, firstR demo, lastR demo, array demo,
      arrayDistinct demo]) :
    ∃ s, rd.default = some s ∧ (s = .num 0 ∨ s = .val none) ∧
      outcome demoCond rd none "h" none none fst snd [] = .ok (some s) := by
  simp only [List.mem_cons, List.not_mem_nil, or_false] at h
  rcases h with rfl | rfl | rfl | rfl | rfl | rfl <;> exact ⟨_, rfl, by simp [demo], rfl⟩

/-! ## C39: dict reducers -/

/-- The outcome of a dict reducer with a step per key. -/
theorem outcome_keyed {S : Type} [BEq V] [EquivBEq V] (condSem : String → R → Except E Bool)
    (rd : Reducer V E) (default : Option (Slot V)) (own : Slot V) (hown : rd.default = some own)
    (hash : String) (cond : Option String) (x y : R → Except E V)
    (rows : List R) (ps : List (V × V)) (hreach : Reach2 condSem cond rows x y ps)
    (P : V × V → Prop) (hP : ∀ p ∈ ps, P p) (emb : List (V × S) → Slot V) (f : List V → S)
    (post : Slot V → Slot V) (hpost : ∀ d, rd.post (emb d) = .ok (post (emb d)))
    (h1 : ∀ k v, P (k, v) → rd.first none (.ok k) (.ok v) = .ok (some (emb [(k, f [v])])))
    (h2 : ∀ d k v, P (k, v) → Dict.get? d k = none →
      rd.reduce (some (emb d)) (some (emb d)) (.ok k) (.ok v) =
        .ok (some (emb (Dict.set d k (f [v])))))
    (h3 : ∀ d k v vs, P (k, v) → vs ≠ [] → (∀ w ∈ vs, ∃ k', P (k', w)) →
      Dict.get? d k = some (f vs) →
      rd.reduce (some (emb d)) (some (emb d)) (.ok k) (.ok v) =
        .ok (some (emb (Dict.set d k (f (vs ++ [v])))))) :
    outcome condSem rd default hash cond none x y rows =
      .ok (some (shown ps default own (post (emb (perKey ps f))))) := by
  rw [outcome_two condSem rd default hash cond x y rows ps hreach]
  rw [foldPairs_keyed rd P emb f h1 h2 h3 ps hP]
  exact resultOf_accum rd default own hown _ post ps (fun _ => hpost _)

section dicts

variable [BEq V] [EquivBEq V] (ops : Ops V E) (condSem : String → R → Except E Bool)
  (default : Option (Slot V)) (hash : String) (cond : Option String) (x y : R → Except E V)
  (rows : List R) (ps : List (V × V)) (hreach : Reach2 condSem cond rows x y ps)

include hreach

/-- **C39.** `Dict` and `DictLast`: the last value per key. -/
theorem C39_dict_last :
    outcome condSem (dictLast ops) default hash cond none x y rows =
      .ok (some (shown ps default (.val ops.none)
        (.dict (perKey ps (fun vs => vs.getLast?.getD ops.none))))) := by
  refine outcome_keyed condSem (dictLast ops) default _ rfl hash cond x y rows ps hreach
    (fun _ => True) (by simp) (fun d => .dict d) _ id (fun _ => rfl) ?_ ?_ ?_
  · intro k v _; rfl
  · intro d k v _ hg; rfl
  · intro d k v vs _ _ _ hg
    simp [dictLast, bothRev]

/-- **C39.** `DictFirst`: the first value per key. -/
theorem C39_dict_first :
    outcome condSem (dictFirst ops) default hash cond none x y rows =
      .ok (some (shown ps default (.val ops.none)
        (.dict (perKey ps (fun vs => vs.head?.getD ops.none))))) := by
  refine outcome_keyed condSem (dictFirst ops) default _ rfl hash cond x y rows ps hreach
    (fun _ => True) (by simp) (fun d => .dict d) (fun vs => vs.head?.getD ops.none) id
    (fun _ => rfl) ?_ ?_ ?_
  · intro k v _; rfl
  · intro d k v _ hg; simp [dictFirst, hg]
  · intro d k v vs _ hne _ hg
    simp only [dictFirst, hg]
    have : (vs ++ [v]).head?.getD ops.none = vs.head?.getD ops.none := by
      cases vs with
      | nil => exact absurd rfl hne
      | cons w vs => rfl
    rw [this, Dict.set_same d k _ hg]

/-- **C39.** `DictArray`: the list of the values per key. -/
theorem C39_dict_array :
    outcome condSem (dictArray ops) default hash cond none x y rows =
      .ok (some (shown ps default (.val ops.none) (.dictList (perKey ps id)))) := by
  refine outcome_keyed condSem (dictArray ops) default _ rfl hash cond x y rows ps hreach
    (fun _ => True) (by simp) (fun d => .dictList d) id id (fun _ => rfl) ?_ ?_ ?_
  · intro k v _; rfl
  · intro d k v _ hg; simp [dictArray, both, hg]
  · intro d k v vs _ _ _ hg
    simp [dictArray, both, hg]

/-- **C39.** `DictArrayDistinct`: the distinct values per key in order of first appearance. -/
theorem C39_dict_array_distinct :
    outcome condSem (dictArrayDistinct ops) default hash cond none x y rows =
      .ok (some (shown ps default (.val ops.none) (.dictList (perKey ps Agg.firstSeen)))) := by
  refine outcome_keyed condSem (dictArrayDistinct ops) default _ rfl hash cond x y rows ps hreach
    (fun _ => True) (by simp) (fun d => .dictKeys d) Agg.firstSeen
    (fun s => match s with | .dictKeys d => .dictList d | s => s) (fun _ => rfl) ?_ ?_ ?_
  · intro k v _; rfl
  · intro d k v _ hg; simp [dictArrayDistinct, both, hg, insertKey, Agg.firstSeen]
  · intro d k v vs _ _ _ hg
    simp [dictArrayDistinct, both, hg, insertKey_firstSeen]

/-- **C39.** `DictCountDistinct`: the number of distinct values per key. -/
theorem C39_dict_count_distinct :
    outcome condSem (dictCountDistinct ops) default hash cond none x y rows =
      .ok (some (shown ps default (.val ops.none)
        (.dictNum (perKey ps (fun vs => (Agg.firstSeen vs).length))))) := by
  have := outcome_keyed condSem (dictCountDistinct ops) default _ rfl hash cond x y rows ps hreach
    (fun _ => True) (by simp) (fun d => .dictKeys d) Agg.firstSeen
    (fun s => match s with
      | .dictKeys d => .dictNum (d.map (fun p => (p.1, p.2.length)))
      | s => s) (fun _ => rfl) ?_ ?_ ?_
  · rw [this]
    simp [perKey, Function.comp_def]
  · intro k v _; rfl
  · intro d k v _ hg; simp [dictCountDistinct, both, hg, Agg.firstSeen]
  · intro d k v vs _ _ _ hg
    simp [dictCountDistinct, both, hg, insertKey_firstSeen]

/-- **C39.** `DictSum`: the sum per key, falsy values counting as 0. -/
theorem C39_dict_sum (I : Ints ops) (n : V → Int) (hn : ∀ p ∈ ps, Counts I p.2 (n p.2)) :
    outcome condSem (dictSum ops) default hash cond none x y rows =
      .ok (some (shown ps default (.val ops.none)
        (.dict (perKey ps (fun vs => I.ofInt ((vs.map n).sum)))))) := by
  refine outcome_keyed condSem (dictSum ops) default _ rfl hash cond x y rows ps hreach
    (fun p => Counts I p.2 (n p.2)) hn (fun d => .dict d) _ id (fun _ => rfl) ?_ ?_ ?_
  · intro k v hv
    simp [dictSum, both, addAt, orZero_counts I v _ hv, I.zero, I.add, Dict.get?, Dict.set]
  · intro d k v hv hg
    simp [dictSum, both, addAt, orZero_counts I v _ hv, I.zero, I.add, hg]
  · intro d k v vs hv _ _ hg
    simp [dictSum, both, addAt, orZero_counts I v _ hv, I.add, hg]

/-- **C39.** `DictSumOrNone`: per key `None` if one value is, otherwise the sum. -/
theorem C39_dict_sum_or_none (I : Ints ops) (n : V → Int)
    (hn : ∀ p ∈ ps, ops.isNone p.2 = true ∨ p.2 = I.ofInt (n p.2)) :
    outcome condSem (dictSumOrNone ops) default hash cond none x y rows =
      .ok (some (shown ps default (.val ops.none)
        (.dict (perKey ps (fun vs =>
          if vs.any ops.isNone then ops.none else I.ofInt ((vs.map n).sum)))))) := by
  refine outcome_keyed condSem (dictSumOrNone ops) default _ rfl hash cond x y rows ps hreach
    (fun p => ops.isNone p.2 = true ∨ p.2 = I.ofInt (n p.2)) hn (fun d => .dict d)
    (fun vs => if vs.any ops.isNone then ops.none else I.ofInt ((vs.map n).sum)) id
    (fun _ => rfl) ?_ ?_ ?_
  · intro k v hv
    by_cases h : ops.isNone v = true
    · simp [dictSumOrNone, bothRev, I.noneUnique v h, I.none]
    · have h' : ops.isNone v = false := by simpa using h
      rcases hv with hv | hv
      · exact absurd hv h
      · simp [dictSumOrNone, bothRev, h', ← hv]
  · intro d k v hv hg
    by_cases h : ops.isNone v = true
    · simp [dictSumOrNone, bothRev, h]
    · have h' : ops.isNone v = false := by simpa using h
      rcases hv with hv | hv
      · exact absurd hv h
      · simp only at hv
        have := I.add 0 (n v)
        rw [← hv, Int.zero_add, ← hv] at this
        simp [dictSumOrNone, bothRev, h', hg, I.zero, I.notNone, addAt, this, ← hv]
  · intro d k v vs hv _ _ hg
    by_cases h : ops.isNone v = true
    · simp [dictSumOrNone, bothRev, h]
    · have h' : ops.isNone v = false := by simpa using h
      rcases hv with hv | hv
      · exact absurd hv h
      · simp only at hv
        by_cases ha : vs.any ops.isNone = true
        · rw [if_pos ha] at hg
          simp only [dictSumOrNone, bothRev, h', Bool.false_eq_true, if_false, hg,
            Option.getD_some, I.none, if_true, List.any_append, ha, Bool.true_or]
          rw [Dict.set_same d k _ hg]
        · have ha' : vs.any ops.isNone = false := by simpa using ha
          rw [if_neg ha] at hg
          have := I.add (vs.map n).sum (n v)
          rw [← hv] at this
          simp [dictSumOrNone, bothRev, h', ha', hg, I.notNone, addAt, this]

/-- **C39.** `DictMax` (`cmp` = `>`) and `DictMin` (`<`): the first best non-`None` value per key;
keys with only `None` values are absent. -/
theorem dictExtreme_best (cmp : V → V → Except E Bool) {P : V → Prop} {better : V → V → Prop}
    (o : Order P cmp better) (hP : ∀ p ∈ ps, ops.isNone p.2 = false → P p.2) :
    ∃ d, outcome condSem (dictExtreme ops cmp) default hash cond none x y rows =
        .ok (some (shown (ps.filter (fun p => !ops.isNone p.2)) default (.val ops.none)
          (.dict d))) ∧
      Dict.keys d = Agg.firstSeen ((ps.filter (fun p => !ops.isNone p.2)).map Prod.fst) ∧
      ∀ k ∈ Dict.keys d, ∃ m, Dict.get? d k = some m ∧
        FirstBest better (valuesAt k (ps.filter (fun p => !ops.isNone p.2))) m := by
  rw [outcome_two condSem (dictExtreme ops cmp) default hash cond x y rows ps hreach]
  rw [foldPairs_skip (dictExtreme ops cmp) (fun p => ops.isNone p.2)
    (fun p hp => by simp [dictExtreme, hp]) (fun p s hp => by simp [dictExtreme, hp])]
  have hall : ∀ p ∈ ps.filter (fun p => !ops.isNone p.2), P p.2 ∧ ops.isNone p.2 = false := by
    intro p hp
    rw [List.mem_filter] at hp
    have hn : ops.isNone p.2 = false := by simpa using hp.2
    exact ⟨hP p hp.1 hn, hn⟩
  revert hall
  generalize ps.filter (fun p => !ops.isNone p.2) = qs
  intro hall
  rw [foldPairs_keyed (dictExtreme ops cmp) (fun p => P p.2 ∧ ops.isNone p.2 = false)
    (fun d => .dict d) (bestOf cmp ops.none) _ _ _ qs hall]
  · refine ⟨perKey qs (bestOf cmp ops.none), ?_, ?_, ?_⟩
    · exact resultOf_accum (dictExtreme ops cmp) default (.val ops.none) rfl _ id qs (fun _ => rfl)
    · simp [Dict.keys, perKey, Function.comp_def]
    · intro k hk
      refine ⟨bestOf cmp ops.none (valuesAt k qs), ?_, ?_⟩
      · rw [get?_perKey, if_pos]
        rw [← Agg.any_firstSeen, List.any_eq_true]
        refine ⟨k, ?_, BEq.rfl⟩
        simpa [Dict.keys, perKey, Function.comp_def] using hk
      · apply bestOf_best o
        · have hk' : k ∈ Agg.firstSeen (qs.map Prod.fst) := by
            simpa [Dict.keys, perKey, Function.comp_def] using hk
          have : (qs.map Prod.fst).any (· == k) = true := by
            rw [← Agg.any_firstSeen, List.any_eq_true]
            exact ⟨k, hk', BEq.rfl⟩
          obtain ⟨a, ha, hak⟩ := List.any_eq_true.1 this
          obtain ⟨q, hq, rfl⟩ := List.mem_map.1 ha
          intro hnil
          have : q.2 ∈ valuesAt k qs := List.mem_map.2 ⟨q, List.mem_filter.2 ⟨hq, hak⟩, rfl⟩
          rw [hnil] at this
          simp at this
        · intro v hv
          obtain ⟨q, hq, rfl⟩ := List.mem_map.1 hv
          exact (hall q (List.mem_filter.1 hq).1).1
  · intro k v hv
    simp [dictExtreme, hv.2, bestOf, pick]
  · intro d k v hv hg
    simp [dictExtreme, hv.2, hg, bestOf, pick]
  · intro d k v vs hv hne hvs hg
    have hb : P (bestOf cmp ops.none vs) := by
      obtain ⟨k', hk'⟩ := hvs _ (bestOf_mem cmp ops.none vs hne)
      exact hk'.1
    have hc := (o.holds_iff v _ hv.1 hb).2
    simp only [dictExtreme, hv.2, Bool.false_eq_true, if_false, hg, hc,
      bestOf_snoc cmp ops.none vs v hne]
    cases holds cmp v (bestOf cmp ops.none vs) with
    | true => rfl
    | false =>
      simp only [Bool.false_eq_true, if_false]
      rw [Dict.set_same d k _ hg]

/-- **C39.** `DictMax`: the first maximal non-`None` value per key. -/
theorem C39_dict_max {P : V → Prop} {greater : V → V → Prop}
    (o : Order P ops.gt greater) (hP : ∀ p ∈ ps, ops.isNone p.2 = false → P p.2) :
    ∃ d, outcome condSem (dictMax ops) default hash cond none x y rows =
        .ok (some (shown (ps.filter (fun p => !ops.isNone p.2)) default (.val ops.none)
          (.dict d))) ∧
      Dict.keys d = Agg.firstSeen ((ps.filter (fun p => !ops.isNone p.2)).map Prod.fst) ∧
      ∀ k ∈ Dict.keys d, ∃ m, Dict.get? d k = some m ∧
        FirstBest greater (valuesAt k (ps.filter (fun p => !ops.isNone p.2))) m :=
  dictExtreme_best ops condSem default hash cond x y rows ps hreach ops.gt o hP

/-- **C39.** `DictMin`: the first minimal non-`None` value per key. -/
theorem C39_dict_min {P : V → Prop} {less : V → V → Prop}
    (o : Order P ops.lt less) (hP : ∀ p ∈ ps, ops.isNone p.2 = false → P p.2) :
    ∃ d, outcome condSem (dictMin ops) default hash cond none x y rows =
        .ok (some (shown (ps.filter (fun p => !ops.isNone p.2)) default (.val ops.none)
          (.dict d))) ∧
      Dict.keys d = Agg.firstSeen ((ps.filter (fun p => !ops.isNone p.2)).map Prod.fst) ∧
      ∀ k ∈ Dict.keys d, ∃ m, Dict.get? d k = some m ∧
        FirstBest less (valuesAt k (ps.filter (fun p => !ops.isNone p.2))) m :=
  dictExtreme_best ops condSem default hash cond x y rows ps hreach ops.lt o hP

end dicts

/-- **C39.** `DictCount`: the number of rows per key; the value expression is not evaluated. -/
theorem C39_dict_count [BEq V] [EquivBEq V] (ops : Ops V E) (condSem : String → R → Except E Bool)
    (default : Option (Slot V)) (hash : String) (cond : Option String) (x y : R → Except E V)
    (rows : List R) (ks : List V) (hreach : Reach condSem cond rows x ks) :
    outcome condSem (dictCount ops) default hash cond none x y rows =
      .ok (some (shown ks default (.val ops.none)
        (.dictNum ((Agg.firstSeen ks).map (fun k => (k, ks.countP (· == k))))))) := by
  rw [outcome_one condSem (dictCount ops) ⟨fun _ _ _ _ _ => rfl, fun _ _ _ _ => rfl⟩ default hash
    cond x y rows ks hreach]
  rw [foldPairs_keyed (dictCount ops) (fun _ => True) (fun d => .dictNum d) List.length
    (fun k v _ => rfl) (fun d k v _ hg => by simp [dictCount, hg])
    (fun d k v vs _ _ _ hg => by simp [dictCount, hg]) _ (by simp)]
  simp only
  rw [resultOf_accum (dictCount ops) default (.val ops.none) rfl _ id _ (fun _ => rfl)]
  simp only [shown_map, perKey, valuesAt, List.length_map, List.countP_eq_length_filter,
    List.filter_map, List.map_map, id]
  congr 5
  simp [Function.comp_def]

example : outcome demoCond (dictSum demo) none "h" none none fst snd
    [(some 2, some 7), (some 1, some 8), (some 2, none), (some 2, some 3)] =
    .ok (some (.dict [(some 2, some 10), (some 1, some 8)])) := by rfl

example : outcome demoCond (dictSumOrNone demo) none "h" none none fst snd
    [(some 2, some 7), (some 1, some 8), (some 2, none), (some 2, some 3)] =
    .ok (some (.dict [(some 2, none), (some 1, some 8)])) := by rfl

example : outcome demoCond (dictMax demo) none "h" none none fst snd
    [(some 4, none), (some 2, some 7), (some 1, some 8), (some 2, none), (some 2, some 9)] =
    .ok (some (.dict [(some 2, some 9), (some 1, some 8)])) := by rfl

example : outcome demoCond (dictCountDistinct demo) none "h" none none fst snd
    [(some 2, some 7), (some 1, some 8), (some 2, none), (some 2, some 7)] =
    .ok (some (.dictNum [(some 2, 2), (some 1, 1)])) := by rfl

example : outcome demoCond (dictArray demo) none "h" (some "first > 1") none fst snd
    [(some 2, some 7), (some 1, some 8), (some 3, none), (some 2, some 7)] =
    .ok (some (.dictList [(some 2, [some 7, some 7]), (some 3, [none])])) := by rfl

/-- The hypotheses of the dict theorems for the last case. -/
example : Reach2 demoCond (some "first > 1")
    [((some 2, some 7) : Row), (some 1, some 8), (some 3, none), (some 2, some 7)] fst snd
    [(some 2, some 7), (some 3, none), (some 2, some 7)] := ⟨_, rfl, rfl⟩

/-! ## C40: defaults -/

/-- **C40.** If no row reaches a reduce its result is the default: the given one, otherwise the
reducer's. -/
theorem C40_default (condSem : String → R → Except E Bool) (rd : Reducer V E)
    (default : Option (Slot V)) (hash : String) (cond : Option String) (initial : Option V)
    (x y : R → Except E V) (rows : List R) (h : Agg.passing condSem cond rows = .ok []) :
    outcome condSem rd default hash cond initial x y rows =
      .ok (match default with | some d => some d | none => rd.default) := by
  have h' : Agg.passing condSem (redOf rd hash cond initial x y).cond rows = .ok [] := h
  simp only [outcome, Agg.alone, h', Agg.foldRows, resultOf]
  cases default <;> rfl

/-- Two rows, none passing the filter. -/
example : outcome demoCond (max demo) (some (.val (some (-1)))) "h" (some "first > 1") none fst snd
    [(some 1, some 7), (some 0, some 8)] = .ok (some (.val (some (-1)))) := by rfl

/-- **C40 (partial).** A reduce that has a default never shows the internal sentinel, whatever its
rows, filter, `initial` and expression.  Missing: reduces without a default, see `C40_refuted`. -/
theorem C40_no_sentinel_partial (condSem : String → R → Except E Bool) (rd : Reducer V E)
    (default : Option (Slot V)) (hash : String) (cond : Option String) (initial : Option V)
    (x y : R → Except E V) (rows : List R) (hd : default ≠ none ∨ rd.default ≠ none)
    (out : Option (Slot V)) (h : outcome condSem rd default hash cond initial x y rows = .ok out) :
    out ≠ none := by
  unfold outcome at h
  split at h
  · next slot _ =>
    cases slot with
    | some s =>
      simp only [resultOf] at h
      split at h
      · simp only [Except.ok.injEq] at h
        subst h
        simp
      · simp at h
    | none =>
      cases default with
      | some d =>
        simp only [resultOf, Except.ok.injEq] at h
        subst h
        simp
      | none =>
        simp only [resultOf, Except.ok.injEq] at h
        subst h
        simpa using hd
  · simp at h

/-- All built-in reducers (`c.ReduceFuncs`, 486-785). -/
def builtins [BEq V] (ops : Ops V E) : List (Reducer V E) :=
  [sum ops, sumOrNone ops, max ops, min ops, count ops, countDistinct ops, firstR ops, lastR ops,
    maxRow ops, minRow ops, array ops, arrayDistinct ops, dictLast ops, dictArray ops,
    dictArrayDistinct ops, dictSum ops, dictSumOrNone ops, dictMax ops, dictMin ops,
    dictCount ops, dictCountDistinct ops, dictFirst ops]

/-- **C40.** Every built-in reducer has a default, so it never shows the sentinel. -/
theorem C40_builtins [BEq V] (ops : Ops V E) (condSem : String → R → Except E Bool)
    (rd : Reducer V E) (hrd : rd ∈ builtins ops)
    (default : Option (Slot V)) (hash : String) (cond : Option String) (initial : Option V)
    (x y : R → Except E V) (rows : List R)
    (out : Option (Slot V)) (h : outcome condSem rd default hash cond initial x y rows = .ok out) :
    out ≠ none := by
  refine C40_no_sentinel_partial condSem rd default hash cond initial x y rows (Or.inr ?_) out h
  simp only [builtins, List.mem_cons, List.not_mem_nil, or_false] at hrd
  rcases hrd with rfl | rfl | rfl | rfl | rfl | rfl | rfl | rfl | rfl | rfl | rfl | rfl | rfl |
    rfl | rfl | rfl | rfl | rfl | rfl | rfl | rfl | rfl <;>
    simp [sum, sumOrNone, max, min, extreme, count, countDistinct, firstR, lastR, maxRow, minRow,
      extremeRow, array, arrayDistinct, dictLast, dictArray, dictArrayDistinct, dictSum,
      dictSumOrNone, dictMax, dictMin, dictExtreme, dictCount, dictCountDistinct, dictFirst]

/-- **C40 refuted.** `c.aggregate(c.reduce(lambda a, b: a + b, c.item(0), initial=5))` of no rows is
neither 5 nor a default but the internal `_none` object. -/
theorem C40_refuted :
    outcome demoCond (custom demo demo.add none) none "h" none (some (some 5)) fst snd [] =
      .ok none := by rfl

/-! ## C41: initial -/

/-- `f(...f(f(v, x1), x2)..., xn)`. -/
def foldFrom (f : V → V → Except E V) : V → List V → Except E V
  | s, [] => .ok s
  | s, v :: vs =>
    match f s v with
    | .ok w => foldFrom f w vs
    | .error e => .error e

/-- **C41 (partial).** With a custom function, `initial` is the starting value of the fold, as soon
as one row reaches the reduce.  Missing: no rows at all (`C40_refuted`), the built-in reducers
(`C41_refuted_*`). -/
theorem C41_custom_partial (ops : Ops V E) (f : V → V → Except E V) (own : Option (Slot V))
    (condSem : String → R → Except E Bool) (default : Option (Slot V)) (hash : String)
    (cond : Option String) (i : V) (x y : R → Except E V) (rows : List R) (vs : List V)
    (hreach : Reach condSem cond rows x vs) (hne : vs ≠ []) :
    outcome condSem (custom ops f own) default hash cond (some i) x y rows =
      match foldFrom f i vs with
      | .ok w => .ok (some (.val w))
      | .error e => .error e := by
  obtain ⟨kept, h1, h2⟩ := hreach
  have h1' : Agg.passing condSem (redOf (custom ops f own) hash cond (some i) x y).cond rows =
    .ok kept := h1
  have key : ∀ (vs : List V) (kept : List R) (s : V), kept.map x = vs.map .ok →
      Agg.foldRows (redOf (custom ops f own) hash cond (some i) x y) (some (.val s)) kept =
        match foldFrom f s vs with
        | .ok w => .ok (some (.val w))
        | .error e => .error e := by
    intro vs
    induction vs with
    | nil =>
      intro kept s h
      cases kept with
      | nil => rfl
      | cons r kept => simp at h
    | cons v vs ih =>
      intro kept s h
      cases kept with
      | nil => simp at h
      | cons r kept =>
        simp only [List.map_cons, List.cons.injEq] at h
        simp only [Agg.foldRows, redOf, custom, h.1, foldFrom]
        cases hf : f s v with
        | ok w => exact ih kept w h.2
        | error e => rfl
  simp only [outcome, Agg.alone, h1']
  cases vs with
  | nil => exact absurd rfl hne
  | cons v vs =>
    cases kept with
    | nil => simp at h2
    | cons r kept =>
      simp only [List.map_cons, List.cons.injEq] at h2
      have hstep : (redOf (custom ops f own) hash cond (some i) x y).init r none =
          match f i v with
          | .ok w => .ok (some (.val w))
          | .error e => .error e := by
        simp only [redOf, custom, h2.1]
        rfl
      simp only [Agg.foldRows, hstep, foldFrom]
      cases hf : f i v with
      | error e => rfl
      | ok w =>
        simp only
        rw [key vs kept w h2.2]
        cases foldFrom f w vs <;> rfl

/-- `f(f(f(10, 2), 1), 3)` for subtraction. -/
example : outcome demoCond
    (custom demo (fun a b => match a, b with
      | some a, some b => .ok (some (a - b)) | _, _ => .error "TypeError") none) none "h" none
    (some (some 10)) fst snd [(some 2, none), (some 1, none), (some 3, none)] =
    .ok (some (.val (some 4))) := by rfl

/-- **C41 (partial).** `Last` with `initial`: the last value, as for a fold. -/
theorem C41_last_partial (ops : Ops V E) (condSem : String → R → Except E Bool)
    (default : Option (Slot V)) (hash : String) (cond : Option String) (i : V)
    (x y : R → Except E V) (rows : List R) (vs : List V) (v : V)
    (hreach : Reach condSem cond rows x (vs ++ [v])) :
    outcome condSem (lastR ops) default hash cond (some i) x y rows = .ok (some (.val v)) := by
  obtain ⟨kept, h1, h2⟩ := hreach
  have h1' : Agg.passing condSem (redOf (lastR ops) hash cond (some i) x y).cond rows = .ok kept := h1
  have key : ∀ (vs : List V) (kept : List R) (s : Option (Slot V)),
      kept.map x = (vs ++ [v]).map .ok →
      Agg.foldRows (redOf (lastR ops) hash cond (some i) x y) s kept = .ok (some (.val v)) := by
    intro vs
    induction vs with
    | nil =>
      intro kept s h
      match kept, h with
      | [r], h =>
        simp only [List.map_cons, List.map_nil, List.nil_append, List.cons.injEq, and_true] at h
        cases s <;> simp [Agg.foldRows, redOf, lastR, h]
      | _ :: _ :: _, h => simp at h
    | cons w vs ih =>
      intro kept s h
      cases kept with
      | nil => simp at h
      | cons r kept =>
        simp only [List.map_cons, List.cons_append, List.cons.injEq] at h
        have := ih kept (some (.val w)) h.2
        cases s <;> simpa [Agg.foldRows, redOf, lastR, h.1] using this
  simp only [outcome, Agg.alone, h1', key vs kept none h2]
  rfl

/-- **C41 (partial).** `SumOrNone` with an integer `initial` adds it to the sum. -/
theorem C41_sum_or_none_partial {ops : Ops V E} (I : Ints ops)
    (condSem : String → R → Except E Bool)
    (default : Option (Slot V)) (hash : String) (cond : Option String) (i : Int)
    (x y : R → Except E V) (rows : List R) (vs : List V)
    (hreach : Reach condSem cond rows x vs) (hne : vs ≠ [])
    (n : V → Int) (hn : ∀ v ∈ vs, ops.isNone v = true ∨ v = I.ofInt (n v)) :
    outcome condSem (sumOrNone ops) default hash cond (some (I.ofInt i)) x y rows =
      .ok (some (.val (if vs.any ops.isNone then ops.none else I.ofInt (i + (vs.map n).sum)))) := by
  obtain ⟨kept, h1, h2⟩ := hreach
  have h1' : Agg.passing condSem (redOf (sumOrNone ops) hash cond (some (I.ofInt i)) x y).cond rows =
    .ok kept := h1
  have stuck : ∀ (vs : List V) (kept : List R), kept.map x = vs.map .ok →
      Agg.foldRows (redOf (sumOrNone ops) hash cond (some (I.ofInt i)) x y)
        (some (.val ops.none)) kept = .ok (some (.val ops.none)) := by
    intro vs
    induction vs with
    | nil => intro kept h; cases kept with
      | nil => rfl
      | cons r kept => simp at h
    | cons v vs ih =>
      intro kept h
      cases kept with
      | nil => simp at h
      | cons r kept =>
        simp only [List.map_cons, List.cons.injEq] at h
        have := ih kept h.2
        by_cases hv : ops.isNone v = true
        · simpa [Agg.foldRows, redOf, sumOrNone, h.1, hv] using this
        · simpa [Agg.foldRows, redOf, sumOrNone, h.1, hv, addSlot, I.none] using this
  have key : ∀ (vs : List V) (kept : List R) (s : Int), kept.map x = vs.map .ok →
      (∀ v ∈ vs, ops.isNone v = true ∨ v = I.ofInt (n v)) →
      Agg.foldRows (redOf (sumOrNone ops) hash cond (some (I.ofInt i)) x y)
        (some (.val (I.ofInt s))) kept =
      .ok (some (.val (if vs.any ops.isNone then ops.none else I.ofInt (s + (vs.map n).sum)))) := by
    intro vs
    induction vs with
    | nil => intro kept s h _; cases kept with
      | nil => simp [Agg.foldRows]
      | cons r kept => simp at h
    | cons v vs ih =>
      intro kept s h hn
      cases kept with
      | nil => simp at h
      | cons r kept =>
        simp only [List.map_cons, List.cons.injEq] at h
        by_cases hv : ops.isNone v = true
        · have := stuck vs kept h.2
          simpa [Agg.foldRows, redOf, sumOrNone, h.1, hv] using this
        · rcases hn v (by simp) with h' | h'
          · exact absurd h' hv
          · have := ih kept (s + n v) h.2 (fun w hw => hn w (by simp [hw]))
            have hadd := I.add s (n v)
            rw [← h'] at hadd
            simpa [Agg.foldRows, redOf, sumOrNone, h.1, hv, addSlot, I.notNone, hadd,
              Int.add_assoc] using this
  have hinit : Agg.foldRows (redOf (sumOrNone ops) hash cond (some (I.ofInt i)) x y) none kept =
      Agg.foldRows (redOf (sumOrNone ops) hash cond (some (I.ofInt i)) x y)
        (some (.val (I.ofInt i))) kept := by
    cases kept with
    | nil => cases vs with
      | nil => exact absurd rfl hne
      | cons v vs => simp at h2
    | cons r kept =>
      cases vs with
      | nil => exact absurd rfl hne
      | cons v vs =>
        simp only [List.map_cons, List.cons.injEq] at h2
        by_cases hv : ops.isNone v = true
        · simp [Agg.foldRows, redOf, sumOrNone, h2.1, hv]
        · rcases hn v (by simp) with h' | h'
          · exact absurd h' hv
          · have hadd := I.add i (n v)
            rw [← h'] at hadd
            simp [Agg.foldRows, redOf, sumOrNone, h2.1, hv, addSlot, I.notNone, hadd]
  simp only [outcome, Agg.alone, h1', hinit, key vs kept i h2 hn]
  rfl

example : outcome demoCond (sumOrNone demo) none "h" none (some (some 10)) fst snd demoRows =
    .ok (some (.val (some 18))) := by rfl

/-- The combining statements of these reducers read the accumulator variable itself. -/
def accumulators [BEq V] (ops : Ops V E) : List (Reducer V E) :=
  [sum ops, count ops, countDistinct ops, array ops, arrayDistinct ops, dictLast ops, dictArray ops,
    dictArrayDistinct ops, dictSum ops, dictSumOrNone ops, dictCount ops, dictCountDistinct ops,
    dictFirst ops]

/-- **C41 refuted.** `Sum`, `Count`, `Array`, ... with any `initial` raise a type error on the first
row, for all rows and expressions. -/
theorem C41_refuted_accumulators [BEq V] (ops : Ops V E) (rd : Reducer V E)
    (hrd : rd ∈ accumulators ops) (condSem : String → R → Except E Bool)
    (default : Option (Slot V)) (hash : String) (cond : Option String) (i : V)
    (x y : R → Except E V) (rows : List R) (ps : List (V × V))
    (hreach : Reach2 condSem cond rows x y ps) (hne : ps ≠ []) :
    outcome condSem rd default hash cond (some i) x y rows = .error ops.typeError := by
  obtain ⟨kept, h1, h2⟩ := hreach
  have h1' : Agg.passing condSem (redOf rd hash cond (some i) x y).cond rows = .ok kept := h1
  have hstep : ∀ k v : V, rd.reduce none (some (.val i)) (.ok k) (.ok v) = .error ops.typeError := by
    intro k v
    simp only [accumulators, List.mem_cons, List.not_mem_nil, or_false] at hrd
    rcases hrd with rfl | rfl | rfl | rfl | rfl | rfl | rfl | rfl | rfl | rfl | rfl | rfl | rfl <;> rfl
  cases ps with
  | nil => exact absurd rfl hne
  | cons p ps =>
    cases kept with
    | nil => simp at h2
    | cons r kept =>
      simp only [List.map_cons, List.cons.injEq, Prod.mk.injEq] at h2
      have : (redOf rd hash cond (some i) x y).init r none = .error ops.typeError := by
        simp only [redOf, h2.1.1, h2.1.2, hstep]
      simp only [outcome, Agg.alone, h1', Agg.foldRows, this]

example : outcome demoCond (sum demo) none "h" none (some (some 5)) fst snd [(some 2, none)] =
    .error "TypeError" := by rfl

/-- **C41 refuted.** `Max` with `initial=5` of 3 and 4 is `None`, not 5. -/
theorem C41_refuted_max :
    outcome demoCond (max demo) none "h" none (some (some 5)) fst snd
      [(some 3, none), (some 4, none)] = .ok (some (.val none)) := by rfl

/-- **C41 refuted.** `First` with an `initial` ignores both it and the rows. -/
theorem C41_refuted_first (ops : Ops V E) (condSem : String → R → Except E Bool)
    (hash : String) (cond : Option String) (i : V) (x y : R → Except E V) (rows : List R)
    (out : Option (Slot V))
    (h : outcome condSem (firstR ops) none hash cond (some i) x y rows = .ok out) :
    out = some (.val ops.none) := by
  have key : ∀ kept, Agg.foldRows (redOf (firstR ops) hash cond (some i) x y) none kept =
      .ok none := by
    intro kept
    induction kept with
    | nil => rfl
    | cons r kept ih => simpa [Agg.foldRows, redOf, firstR] using ih
  unfold outcome Agg.alone at h
  split at h
  · next slot hs =>
    split at hs
    · rw [key] at hs
      simp only [Except.ok.injEq] at hs
      subst hs
      simp only [resultOf, firstR, Except.ok.injEq] at h
      exact h.symm
    · simp at hs
  · simp at h

example : outcome demoCond (firstR demo) none "h" none (some (some 5)) fst snd demoRows =
    .ok (some (.val none)) := by rfl

/-! ## Initialisation of the built-in reducers: hypotheses of C33 and C34 -/

/-- Built-in reducers without `initial` meet the hypotheses of `Agg.C33_group_by_partial` and
`Agg.C34_aggregate_partial` about initialisation. -/
theorem builtins_ok [BEq V] (ops : Ops V E) (rd : Reducer V E) (hrd : rd ∈ builtins ops)
    (hash : String) (cond : Option String) (x y : R → Except E V) :
    Agg.Inits (redOf rd hash cond none x y) ∧ Agg.Keeps (redOf rd hash cond none x y) := by
  have hfirst : rd.uncond = true → ∀ x y v, rd.first none x y = .ok v → v ≠ none := by
    intro hu x y v h
    simp only [builtins, List.mem_cons, List.not_mem_nil, or_false] at hrd
    rcases hrd with rfl | rfl | rfl | rfl | rfl | rfl | rfl | rfl | rfl | rfl | rfl | rfl | rfl |
      rfl | rfl | rfl | rfl | rfl | rfl | rfl | rfl | rfl <;>
      simp only [sum, sumOrNone, max, min, extreme, count, countDistinct, firstR, lastR, maxRow,
        minRow, extremeRow, array, arrayDistinct, dictLast, dictArray, dictArrayDistinct, dictSum,
        dictSumOrNone, dictMax, dictMin, dictExtreme, dictCount, dictCountDistinct, dictFirst,
        addAt, Bool.false_eq_true] at hu h <;>
      (repeat' split at h) <;> simp_all <;> (subst h; simp)
  have hkeep : ∀ s x y v, rd.reduce (some s) (some s) x y = .ok v → v ≠ none := by
    intro s x y v h
    simp only [builtins, List.mem_cons, List.not_mem_nil, or_false] at hrd
    rcases hrd with rfl | rfl | rfl | rfl | rfl | rfl | rfl | rfl | rfl | rfl | rfl | rfl | rfl |
      rfl | rfl | rfl | rfl | rfl | rfl | rfl | rfl | rfl <;>
      simp only [sum, sumOrNone, max, min, extreme, count, countDistinct, firstR, lastR, maxRow,
        minRow, extremeRow, array, arrayDistinct, dictLast, dictArray, dictArrayDistinct, dictSum,
        dictSumOrNone, dictMax, dictMin, dictExtreme, dictCount, dictCountDistinct, dictFirst,
        addAt, addSlot, noDict, Bool.false_eq_true] at h <;>
      (repeat' split at h) <;> simp_all <;> (subst h; simp)
  refine ⟨?_, ?_⟩
  · intro hu row v h
    exact hfirst hu _ _ _ h
  · intro row s v h
    exact hkeep s _ _ _ h

/-- A reduce with a built-in reducer and no `initial`. -/
def IsBuiltin [BEq V] (ops : Ops V E) (r : Agg.Red R (Slot V) E) : Prop :=
  ∃ rd ∈ builtins ops, ∃ hash cond x y, r = redOf rd hash cond none x y

/-- **C33** for the built-in reducers without `initial`: only the hash hypothesis remains. -/
theorem C33_builtins_partial {K : Type} [BEq V] [BEq K] [EquivBEq K] (ops : Ops V E)
    (condSem : String → R → Except E Bool) (keyOf : R → Except E K)
    (rs : List (Agg.Red R (Slot V) E)) (hb : ∀ r ∈ rs, IsBuiltin ops r) (hf : Agg.Faithful rs)
    (rows : List R) (out : List (K × List (Option (Slot V)))) :
    Agg.groupBy condSem keyOf rs rows = .ok out ↔
      Agg.groupSpec condSem keyOf rs rows = .ok out := by
  refine Agg.C33_group_by_partial condSem keyOf rs hf ?_ ?_ rows out
  · intro r hr
    obtain ⟨rd, hrd, hash, cond, x, y, rfl⟩ := hb r hr
    exact (builtins_ok ops rd hrd hash cond x y).1
  · intro r hr _
    obtain ⟨rd, hrd, hash, cond, x, y, rfl⟩ := hb r hr
    exact (builtins_ok ops rd hrd hash cond x y).2

/-- **C33 refuted.** `First` with an `initial` never sets its variable, and it decides the starting
branch of the block it is merged into: `Count` beside it is 1 for a group of three rows. -/
theorem C33_refuted_initial :
    Agg.groupBy demoCond fst
      [redOf (firstR demo) "first" none (some (some 0)) snd snd,
        redOf (count demo) "count" none none snd snd]
      [(some 1, some 5), (some 1, some 6), (some 1, some 7)] =
      .ok [(some 1, [none, some (.num 1)])] ∧
    outcome demoCond (count demo) none "count" none none snd snd
      [(some 1, some 5), (some 1, some 6), (some 1, some 7)] = .ok (some (.num 3)) := by
  constructor <;> rfl

end Verif.Reducers
