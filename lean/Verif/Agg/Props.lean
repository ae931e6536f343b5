import Verif.Agg.Whole
import Verif.Agg.Hash

/-!
# Properties C32, C33, C34, C35

The specifications are in `Verif/Agg/Spec.lean`: every reduce computed alone (`alone`, `allAlone`)
over plain lists of rows, groups by first appearance (`firstSeen`, `rowsWith`, `groupSpec`).
-/

set_option autoImplicit false

namespace Verif.Agg

open Verif

variable {R V E K : Type}

/-! ## Sample reduces for the concrete cases -/

/-- A row with two fields. -/
abbrev Row2 := Option Int × Option Int

/-- `Max` of a field: not initialised by `None`. -/
def sampleMax (hash : String) (cond : Option String) (f : Row2 → Option Int) :
    Red Row2 Int String where
  hash := hash
  cond := cond
  uncond := false
  init := fun row v => match f row with | some x => .ok (some x) | none => .ok v
  two := fun row v =>
    match f row, v with
    | some x, some y => if x > y then .ok (some x) else .ok (some y)
    | none, v => .ok v
    | _, none => .error "TypeError"

/-- `Sum` of a field. -/
def sampleSum (hash : String) (cond : Option String) (f : Row2 → Option Int) :
    Red Row2 Int String where
  hash := hash
  cond := cond
  uncond := true
  init := fun row _ => .ok (some ((f row).getD 0))
  two := fun row v =>
    match v with
    | some y => .ok (some (y + (f row).getD 0))
    | none => .error "TypeError"

/-- Meaning of the condition texts of the samples. -/
def sampleCond : String → Row2 → Except String Bool
  | "second > 4", row => match row.2 with | some x => .ok (decide (x > 4)) | none => .error "TypeError"
  | _, _ => .ok true

theorem sampleMax_keeps (h : String) (c : Option String) (f : Row2 → Option Int) :
    Keeps (sampleMax h c f) := by
  intro row x v hv
  simp only [sampleMax] at hv
  cases hf : f row with
  | none => simp [hf] at hv; simp [← hv]
  | some y =>
    simp only [hf] at hv
    split at hv <;> (simp at hv; simp [← hv])

theorem sampleSum_keeps (h : String) (c : Option String) (f : Row2 → Option Int) :
    Keeps (sampleSum h c f) := by
  intro row x v hv
  simp [sampleSum] at hv
  simp [← hv]

theorem sampleMax_inits (h : String) (c : Option String) (f : Row2 → Option Int) :
    Inits (sampleMax h c f) := by
  intro hu; simp [sampleMax] at hu

theorem sampleSum_inits (h : String) (c : Option String) (f : Row2 → Option Int) :
    Inits (sampleSum h c f) := by
  intro _ row v hv
  simp [sampleSum] at hv
  simp [← hv]

/-! ## C33 / C32: group by -/

/-- **C33 (partial).** `group_by(...).aggregate(...)` gives, when it succeeds, one entry per distinct key in
order of first appearance, and every reduce of an entry is that reduce computed alone over exactly
the rows with that key; it succeeds whenever all these separate computations do.

Hypotheses about the reduces: equal hashes mean equal reductions (see C35), a reduce flagged
`unconditional_init` does initialise on its first row and keeps its value.  The built-in reducers
without `initial` satisfy the latter (`Verif/Reducers`).
Missing: the hypotheses can fail in the code, for hashes see C35, for initialisation see
`C33_refuted_initial` in `Verif/Reducers/Props.lean`. -/
theorem C33_group_by_partial [BEq K] [EquivBEq K] (condSem : String → R → Except E Bool)
    (keyOf : R → Except E K) (rs : List (Red R V E)) (hf : Faithful rs) (hi : ∀ r ∈ rs, Inits r)
    (hk : ∀ r ∈ rs, r.uncond = true → Keeps r) (rows : List R)
    (out : List (K × List (Option V))) :
    groupBy condSem keyOf rs rows = .ok out ↔ groupSpec condSem keyOf rs rows = .ok out := by
  have forward : ∀ out, groupBy condSem keyOf rs rows = .ok out →
      groupSpec condSem keyOf rs rows = .ok out := by
    intro out h
    unfold groupBy at h
    simp only at h
    split at h
    · simp at h
    · next d hd =>
      simp only [Except.ok.injEq] at h
      subst h
      exact groupBy_sound condSem keyOf rs hf hi hk rows d hd
  constructor
  · exact forward out
  · intro h
    obtain ⟨d, hd⟩ := groupBy_complete condSem keyOf rs hi hk rows out h
    have hr : groupBy condSem keyOf rs rows =
        .ok (d.map (fun p => (p.1, (compile false rs).slotOf.map p.2))) := by
      simp only [groupBy, hd]
    have := forward _ hr
    rw [h] at this
    simp only [Except.ok.injEq] at this
    rw [hr, this]

/-- Three reduces, one filtered, merged into two blocks, over three interleaved groups. -/
example :
    groupBy sampleCond (fun row : Row2 => (.ok row.1 : Except String (Option Int)))
      [sampleSum "s" none (·.2), sampleMax "m" (some "second > 4") (·.2), sampleSum "s1" none (·.1)]
      [(some 1, some 10), (none, some 3), (some 1, some 2), (some 2, some 5), (none, some 9)] =
    .ok [(some 1, [some 12, some 10, some 2]), (none, [some 12, some 9, some 0]),
      (some 2, [some 5, some 5, some 2])] := by rfl

/-- The hypotheses of `C33_group_by_partial` hold of these reduces. -/
example : let rs := [sampleSum "s" none (·.2), sampleMax "m" (some "second > 4") (·.2),
      sampleSum "s1" none (·.1)]
    Faithful rs ∧ (∀ r ∈ rs, Inits r) ∧ ∀ r ∈ rs, r.uncond = true → Keeps r := by
  refine ⟨?_, ?_, ?_⟩
  · intro r hr r' hr' h
    simp only [List.mem_cons, List.not_mem_nil, or_false] at hr hr'
    rcases hr with rfl | rfl | rfl <;> rcases hr' with rfl | rfl | rfl <;>
      first | exact ⟨rfl, rfl, rfl⟩ | (simp [sampleSum, sampleMax] at h)
  · intro r hr
    simp only [List.mem_cons, List.not_mem_nil, or_false] at hr
    rcases hr with rfl | rfl | rfl
    · exact sampleSum_inits _ _ _
    · exact sampleMax_inits _ _ _
    · exact sampleSum_inits _ _ _
  · intro r hr _
    simp only [List.mem_cons, List.not_mem_nil, or_false] at hr
    rcases hr with rfl | rfl | rfl
    · exact sampleSum_keeps _ _ _
    · exact sampleMax_keeps _ _ _
    · exact sampleSum_keeps _ _ _

/-- What "one element per distinct key, in order of first appearance" means for the list of output
keys `oks` of input keys `iks`: no two output keys are equal, every input key is equal to an output
key, output keys are input keys, and they appear in the order of their first occurrences. -/
def OneEachInOrder [BEq K] (iks oks : List K) : Prop :=
  oks.Pairwise (fun a b => (a == b) = false) ∧
  (∀ k ∈ iks, ∃ o ∈ oks, (o == k) = true) ∧
  oks.Sublist iks ∧
  ∀ pre post k, iks = pre ++ k :: post → (∀ a ∈ pre, (a == k) = false) → k ∈ oks

theorem oneEach_firstSeen [BEq K] [EquivBEq K] (ks : List K) : OneEachInOrder ks (firstSeen ks) := by
  refine ⟨firstSeen_pairwise ks, ?_, ?_, ?_⟩
  · intro k hk
    have : (firstSeen ks).any (· == k) = true := by
      rw [any_firstSeen, List.any_eq_true]; exact ⟨k, hk, BEq.rfl⟩
    obtain ⟨o, h1, h2⟩ := List.any_eq_true.1 this
    exact ⟨o, h1, h2⟩
  · induction ks with
    | nil => simp [firstSeen]
    | cons k ks ih => exact (List.filter_sublist.trans ih).cons_cons k
  · induction ks with
    | nil => intro pre post k h; simp at h
    | cons a ks ih =>
      intro pre post k h hn
      cases pre with
      | nil =>
        simp only [List.nil_append, List.cons.injEq] at h
        obtain ⟨rfl, _⟩ := h
        simp [firstSeen]
      | cons b pre =>
        simp only [List.cons_append, List.cons.injEq] at h
        obtain ⟨rfl, h⟩ := h
        have h1 := ih pre post k h (fun x hx => hn x (by simp [hx]))
        simp only [firstSeen, List.mem_cons, List.mem_filter]
        right
        exact ⟨h1, by simp [hn a (by simp)]⟩

/-- The keys of the dictionary of groups after the loop, whatever the reduces do. -/
theorem groupLoop_keys [BEq K] [EquivBEq K] (condSem : String → R → Except E Bool)
    (blocks : List (Block R V E)) (keyOf : R → Except E K) (rows : List R) :
    ∀ (pre : List R) (ks : List K) (d d' : List (K × Slots V)), keysOf keyOf pre = .ok ks →
      Dict.keys d = firstSeen ks → groupLoop condSem blocks keyOf rows d = .ok d' →
      ∃ ks', keysOf keyOf (pre ++ rows) = .ok ks' ∧ Dict.keys d' = firstSeen ks' := by
  induction rows with
  | nil =>
    intro pre ks d d' h1 h2 h
    simp only [groupLoop, Except.ok.injEq] at h
    subst h
    exact ⟨ks, by simpa using h1, h2⟩
  | cons row rows ih =>
    intro pre ks d d' h1 h2 h
    simp only [groupLoop] at h
    cases hk : keyOf row with
    | error e => simp [hk] at h
    | ok k =>
      simp only [hk] at h
      cases hs : runBlocks condSem row blocks ((Dict.get? d k).getD fresh) with
      | error e => simp [hs] at h
      | ok s =>
        simp only [hs] at h
        have := ih (pre ++ [row]) (ks ++ [k]) _ _ ((keysOf_snoc ..).2 ⟨ks, k, h1, hk, rfl⟩)
          (keys_set_firstSeen d ks k s h2) h
        simpa using this

/-- **C32.** The output of a group by has exactly one element per distinct key, in order of first
appearance, whatever its reduces are. -/
theorem C32_one_per_key [BEq K] [EquivBEq K] (condSem : String → R → Except E Bool)
    (keyOf : R → Except E K) (rs : List (Red R V E)) (rows : List R)
    (out : List (K × List (Option V))) (h : groupBy condSem keyOf rs rows = .ok out) :
    ∃ iks, keysOf keyOf rows = .ok iks ∧ OneEachInOrder iks (out.map Prod.fst) := by
  unfold groupBy at h
  simp only at h
  split at h
  · simp at h
  · next d hd =>
    simp only [Except.ok.injEq] at h
    subst h
    obtain ⟨ks, h1, h2⟩ := groupLoop_keys condSem _ keyOf rows [] [] [] d rfl rfl hd
    refine ⟨ks, by simpa using h1, ?_⟩
    rw [List.map_map]
    have : (Prod.fst ∘ fun p : K × Slots V => (p.1, (compile false rs).slotOf.map p.2)) = Prod.fst :=
      rfl
    rw [this]
    show OneEachInOrder ks (Dict.keys d)
    rw [h2]
    exact oneEach_firstSeen ks

/-- Keys 2, 1, 2, 3, 1 give groups 2, 1, 3. -/
example : ∃ out, groupBy sampleCond (fun row : Row2 => (.ok row.1 : Except String (Option Int)))
      [sampleSum "s" none (·.2)]
      [(some 2, none), (some 1, none), (some 2, none), (some 3, none), (some 1, none)] = .ok out ∧
    out.map Prod.fst = [some 2, some 1, some 3] := ⟨_, rfl, rfl⟩

/-! ## C34: aggregate -/

/-- **C34 (partial).** `c.aggregate` gives every reduce computed alone over all rows, provided the
last block of the generated loop is initialised no earlier than the others (`LastLatest`).
Missing: without that hypothesis the statement is false (`C34_refuted`). -/
theorem C34_aggregate_partial (condSem : String → R → Except E Bool) (rs : List (Red R V E))
    (hf : Faithful rs) (hi : ∀ r ∈ rs, Inits r) (hk : ∀ r ∈ rs, Keeps r) (rows : List R)
    (hll : LastLatest condSem (reduceBlocks (compile true rs).items) rows)
    (out : List (Option V)) :
    aggregate condSem rs rows = .ok out ↔ allAlone condSem rows rs = .ok out :=
  aggregate_iff condSem rs hf hi hk rows hll out

/-- When every reduce is unfiltered and initialises unconditionally there is a single block. -/
theorem single_block (rs : List (Red R V E)) (h : ∀ r ∈ rs, r.cond = none ∧ r.uncond = true) :
    (reduceBlocks (compile true rs).items).length ≤ 1 := by
  have hit : ∀ it ∈ (compile true rs).items, it.red.cond = none ∧ it.red.uncond = true :=
    fun it hm => h _ ((compile_inv true rs).reds it hm)
  generalize (compile true rs).items = items at hit
  have e1 : items.filter (fun it => it.red.cond.isSome && !it.red.uncond) = [] := by
    rw [List.filter_eq_nil_iff]; intro it hm; simp [hit it hm]
  have e2 : items.filter (fun it => it.red.cond.isSome && it.red.uncond) = [] := by
    rw [List.filter_eq_nil_iff]; intro it hm; simp [hit it hm]
  have e3 : items.filter (fun it => !it.red.cond.isSome && !it.red.uncond) = [] := by
    rw [List.filter_eq_nil_iff]; intro it hm; simp [hit it hm]
  simp only [reduceBlocks, e1, e2, e3, bucket, List.foldl_nil, List.flatMap_nil,
    List.filterMap_nil, List.nil_append, List.map_nil, List.append_nil]
  cases mergeAll _ <;> simp

/-- **C34 (partial).** For reduces that are all unfiltered and initialise unconditionally (`Sum`,
`Count`, `First`, `Last`, `Array`, `Dict`, ...) the claim holds for all rows. -/
theorem C34_unconditional_partial (condSem : String → R → Except E Bool) (rs : List (Red R V E))
    (hf : Faithful rs) (hi : ∀ r ∈ rs, Inits r) (hk : ∀ r ∈ rs, Keeps r)
    (hu : ∀ r ∈ rs, r.cond = none ∧ r.uncond = true) (rows : List R) (out : List (Option V)) :
    aggregate condSem rs rows = .ok out ↔ allAlone condSem rows rs = .ok out := by
  apply C34_aggregate_partial condSem rs hf hi hk rows
  intro pre _ b hb p hp hx q hq hc
  have hlen := single_block rs hu
  obtain ⟨b', hb', hq'⟩ := List.mem_flatMap.1 hq
  have hmem := List.mem_of_getLast? hb
  have : b' = b := by
    match hbl : reduceBlocks (compile true rs).items, hlen with
    | [], _ => rw [hbl] at hb'; simp at hb'
    | [c], _ =>
      rw [hbl] at hb' hmem
      simp only [List.mem_singleton] at hb' hmem
      rw [hb', hmem]
  subst this
  -- a reduce of this kind has a value exactly when there is a row
  have hpre : pre = [] := by
    cases hpn : pre with
    | nil => rfl
    | cons row rest =>
      exfalso
      have hred : q.2 ∈ rs := by
        obtain ⟨it, hit, rfl⟩ := List.mem_map.1 ((allParts_perm _).mem_iff.1 hq)
        exact (compile_inv true rs).reds it hit
      have hkeep : ∀ (l : List R) (v w : Option V), v ≠ none → foldRows q.2 v l = .ok w → w ≠ none := by
        intro l
        induction l with
        | nil =>
          intro v w hv hfd
          cases v with
          | none => exact absurd rfl hv
          | some y => simp only [foldRows, Except.ok.injEq] at hfd; rw [← hfd]; exact hv
        | cons r0 l ih =>
          intro v w hv hfd
          cases v with
          | none => exact absurd rfl hv
          | some y =>
            simp only [foldRows] at hfd
            cases ht : q.2.two r0 (some y) with
            | error e => simp [ht] at hfd
            | ok v' => simp only [ht] at hfd; exact ih v' w (hk _ hred _ _ _ ht) hfd
      have hpass : ∀ l : List R, passing condSem none l = .ok l := by
        intro l
        induction l with
        | nil => rfl
        | cons r0 l ih => simp [passing, condHolds, ih]
      rw [hpn] at hc
      simp only [alone, (hu _ hred).1, hpass, foldRows] at hc
      cases hin : q.2.init row none with
      | error e => simp [hin] at hc
      | ok v' =>
        simp only [hin] at hc
        exact hkeep rest v' none (hi _ hred (hu _ hred).2 _ _ hin) hc rfl
  subst hpre
  obtain ⟨x, hx⟩ := hx
  rw [alone_nil] at hx
  simp at hx

/-- Two sums and a count-like reduce. -/
example :
    aggregate sampleCond [sampleSum "a" none (·.1), sampleSum "b" none (·.2)]
      [(some 1, some 10), (none, some 3), (some 5, some 2)] = .ok [some 6, some 15] := by rfl

/-- **C34 (partial).** If every reduce has a value after the first row, the claim holds whatever
the reduces are. -/
theorem C34_first_row_partial (condSem : String → R → Except E Bool) (rs : List (Red R V E))
    (hf : Faithful rs) (hi : ∀ r ∈ rs, Inits r) (hk : ∀ r ∈ rs, Keeps r) (row : R) (rows : List R)
    (hfirst : ∀ r ∈ rs, ∃ x, alone condSem r [row] = .ok (some x)) (out : List (Option V)) :
    aggregate condSem rs (row :: rows) = .ok out ↔
      allAlone condSem (row :: rows) rs = .ok out := by
  apply C34_aggregate_partial condSem rs hf hi hk
  intro pre hpre b hb p hp hx q hq hc
  have hred : q.2 ∈ rs := by
    obtain ⟨it, hit, rfl⟩ := List.mem_map.1 ((allParts_perm _).mem_iff.1 hq)
    exact (compile_inv true rs).reds it hit
  cases pre with
  | nil =>
    obtain ⟨x, hx⟩ := hx
    rw [alone_nil] at hx
    simp at hx
  | cons a pre =>
    obtain ⟨t, ht⟩ := hpre
    simp only [List.cons_append, List.cons.injEq] at ht
    obtain ⟨rfl, _⟩ := ht
    obtain ⟨x, hx'⟩ := hfirst _ hred
    suffices hs : ∀ (l : List R) (w : Option V),
        alone condSem q.2 (a :: l.reverse) = .ok w → w ≠ none from
      hs pre.reverse none (by simpa using hc) rfl
    intro l
    induction l with
    | nil => intro w hw; simp only [List.reverse_nil] at hw; rw [hx'] at hw; simp at hw; simp [← hw]
    | cons y l ih =>
      intro w hw
      rw [List.reverse_cons, ← List.cons_append] at hw
      obtain ⟨v, h1, h2⟩ := (alone_snoc ..).1 hw
      exact stepRed_keeps condSem q.2 (hk _ hred) y v w (ih v h1) h2

/-- Filtered and unfiltered reduces, the first row reaches all of them. -/
example :
    aggregate sampleCond
      [sampleMax "m" (some "second > 4") (·.2), sampleMax "n" none (·.1), sampleSum "b" none (·.2)]
      [(some 1, some 10), (none, some 3), (some 5, some 2)] = .ok [some 10, some 5, some 15] ∧
    ∀ r ∈ [sampleMax "m" (some "second > 4") (·.2), sampleMax "n" none (·.1),
      sampleSum "b" none (·.2)], ∃ x, alone sampleCond r [(some 1, some 10)] = .ok (some x) := by
  refine ⟨rfl, ?_⟩
  intro r hr
  simp only [List.mem_cons, List.not_mem_nil, or_false] at hr
  rcases hr with rfl | rfl | rfl
  · exact ⟨10, rfl⟩
  · exact ⟨1, rfl⟩
  · exact ⟨10, rfl⟩

/-- **C34 is violated by the code.** `c.aggregate((Max(first), Max(second)))` over
`[(None, 5), (1, 7)]`: the second row completes the checksum in the first block, `break` skips the
second block for that row, and the second maximum is 5 instead of 7. -/
theorem C34_refuted :
    let rs := [sampleMax "a" none (·.1), sampleMax "b" none (·.2)]
    let rows := [(none, some 5), (some 1, some 7)]
    Faithful rs ∧ (∀ r ∈ rs, Inits r ∧ Keeps r) ∧
      aggregate sampleCond rs rows = .ok [some 1, some 5] ∧
      allAlone sampleCond rows rs = .ok [some 1, some 7] := by
  refine ⟨?_, ?_, rfl, rfl⟩
  · intro r hr r' hr' h
    simp only [List.mem_cons, List.not_mem_nil, or_false] at hr hr'
    rcases hr with rfl | rfl <;> rcases hr' with rfl | rfl <;>
      first | exact ⟨rfl, rfl, rfl⟩ | (simp [sampleMax] at h)
  · intro r hr
    simp only [List.mem_cons, List.not_mem_nil, or_false] at hr
    rcases hr with rfl | rfl
    · exact ⟨sampleMax_inits _ _ _, sampleMax_keeps _ _ _⟩
    · exact ⟨sampleMax_inits _ _ _, sampleMax_keeps _ _ _⟩

/-! ## C35: sharing -/

/-- The same reduces, recognised as different ones. -/
def Unshared (rs rs' : List (Red R V E)) : Prop :=
  rs.length = rs'.length ∧ (rs'.map Red.hash).Nodup ∧
  ∀ (i : Nat) r, rs[i]? = some r → ∃ r', rs'[i]? = some r' ∧
    r.cond = r'.cond ∧ r.init = r'.init ∧ r.two = r'.two ∧ r.uncond = r'.uncond

theorem unshared_allAlone (condSem : String → R → Except E Bool) (rows : List R)
    (rs rs' : List (Red R V E)) (h : Unshared rs rs') :
    allAlone condSem rows rs = allAlone condSem rows rs' := by
  obtain ⟨hl, hn, hp⟩ := h
  clear hn
  induction rs generalizing rs' with
  | nil => cases rs' with
    | nil => rfl
    | cons _ _ => simp at hl
  | cons r rs ih =>
    cases rs' with
    | nil => simp at hl
    | cons r' rs' =>
      obtain ⟨r2, h1, h2, h3, h4, _⟩ := hp 0 r (by simp)
      simp only [List.getElem?_cons_zero, Option.some.injEq] at h1
      subst h1
      have := ih rs' (by simpa using hl) (fun i a ha => by simpa using hp (i + 1) a (by simpa using ha))
      simp only [allAlone, this, alone_congr condSem r r' rows ⟨h2, h3, h4⟩]

theorem unshared_faithful (rs rs' : List (Red R V E)) (h : Unshared rs rs') : Faithful rs' := by
  intro r hr r' hr' he
  have : r = r' := by
    have hn := h.2.1
    clear h
    induction rs' with
    | nil => simp at hr
    | cons a l ih =>
      simp only [List.map_cons, List.nodup_cons] at hn
      rcases List.mem_cons.1 hr with h1 | h1 <;> rcases List.mem_cons.1 hr' with h2 | h2
      · rw [h1, h2]
      · exact absurd (List.mem_map_of_mem (f := Red.hash) h2) (by rw [← he, h1]; exact hn.1)
      · exact absurd (List.mem_map_of_mem (f := Red.hash) h1) (by rw [he, h2]; exact hn.1)
      · exact ih h1 h2 hn.2
  subst this
  exact ⟨rfl, rfl, rfl⟩

/-- **C35 (partial).** In a group by, sharing accumulators between reduces with equal hashes cannot
be seen in the output, provided that equal hashes mean equal reductions.
Missing: that the hash computed by the code has this property; it does not
(`C35_refuted_aggregate`, `C35_refuted_group_by`). -/
theorem C35_sharing_partial [BEq K] [EquivBEq K] (condSem : String → R → Except E Bool)
    (keyOf : R → Except E K) (rs rs' : List (Red R V E)) (hu : Unshared rs rs')
    (hf : Faithful rs) (hi : ∀ r ∈ rs', Inits r) (hk : ∀ r ∈ rs', r.uncond = true → Keeps r)
    (rows : List R) (out : List (K × List (Option V))) :
    groupBy condSem keyOf rs rows = .ok out ↔ groupBy condSem keyOf rs' rows = .ok out := by
  have pick : ∀ r ∈ rs, ∃ r' ∈ rs', r.cond = r'.cond ∧ r.init = r'.init ∧ r.two = r'.two ∧
      r.uncond = r'.uncond := by
    intro r hr
    obtain ⟨i, hi'⟩ := List.getElem?_of_mem hr
    obtain ⟨r', h1, h2⟩ := hu.2.2 i r hi'
    exact ⟨r', List.mem_of_getElem? h1, h2⟩
  rw [C33_group_by_partial condSem keyOf rs hf ?_ ?_ rows out,
    C33_group_by_partial condSem keyOf rs' (unshared_faithful rs rs' hu) hi hk rows out]
  · have he : ∀ ks, eachGroup condSem keyOf rs rows ks = eachGroup condSem keyOf rs' rows ks := by
      intro ks
      induction ks with
      | nil => rfl
      | cons k ks ih => simp only [eachGroup, ih, unshared_allAlone condSem _ rs rs' hu]
    simp only [groupSpec, he]
  · intro r hr
    obtain ⟨r', hr', _, h2, _, h4⟩ := pick r hr
    intro hun row v hv
    rw [h2] at hv
    exact hi r' hr' (h4 ▸ hun) row v hv
  · intro r hr hun
    obtain ⟨r', hr', _, _, h3, h4⟩ := pick r hr
    intro row x v hv
    rw [h3] at hv
    exact hk r' hr' (h4 ▸ hun) row x v hv

/-- Two uses of the same reduce share a slot. -/
example :
    (compile false [sampleSum "s" none (·.1), sampleMax "m" none (·.1),
      sampleSum "s" none (·.1)]).slotOf = [0, 1, 0] ∧
    groupBy sampleCond (fun row : Row2 => (.ok row.2 : Except String (Option Int)))
      [sampleSum "s" none (·.1), sampleMax "m" none (·.1), sampleSum "s" none (·.1)]
      [(some 1, some 1), (some 4, some 1)] = .ok [(some 1, [some 5, some 4, some 5])] := by
  constructor <;> rfl

/-- **C35 is violated by the code in `c.aggregate`.** `c.reduce(Sum, c.item(1))` and
`c.reduce(Sum, c.item(2))` as the first and second reduce: their flags are 1 and 2, `code_hash`
removes all digits `1` from the first code and all digits `2` from the second, the hashes coincide
and the second reduce reads the sum of the first field. -/
theorem C35_refuted_aggregate :
    codeHash (sumText true 0 "row_[1]") = codeHash (sumText true 1 "row_[2]") ∧
    let r1 := sampleSum (String.ofList (codeHash (sumText true 0 "row_[1]"))) none (·.1)
    let r2 := sampleSum (String.ofList (codeHash (sumText true 1 "row_[2]"))) none (·.2)
    ∀ rows : List Row2, ∀ out, aggregate sampleCond [r1, r2] rows = .ok out →
      ∃ v, out = [v, v] := by
  have h : codeHash (sumText true 0 "row_[1]") = codeHash (sumText true 1 "row_[2]") := by
    decide +kernel
  refine ⟨h, ?_⟩
  intro r1 r2 rows out ho
  have hs : (compile true [r1, r2]).slotOf = [0, 0] := by
    simp only [r1, r2, h]
    simp [compile, dedupLoop, dedupStep, sampleSum, Dict.get?, Dict.set]
  simp only [aggregate, hs] at ho
  split at ho
  · simp at ho
  · split at ho
    · simp at ho
    · next s _ =>
      simp only [List.map_cons, List.map_nil, Except.ok.injEq] at ho
      exact ⟨s 0, ho.symm⟩

/-- **C35 is violated by the code in `group_by` as well.** `code_hash` removes the accumulator's
name, so `c.reduce(c.inline_expr("{0}-{1}"), c.item(0), default=0)` and
`c.reduce(c.inline_expr("-{1}"), c.item(0), default=0)` have the same hash. -/
theorem C35_refuted_group_by :
    codeHash (inlineText false 0 (fun a b => a ++ "-" ++ b) "row_[0]") =
      codeHash (inlineText false 1 (fun _ b => "-" ++ b) "row_[0]") ∧
    toCode (inlineText false 0 (fun a b => a ++ "-" ++ b) "row_[0]") ≠
      toCode (inlineText false 0 (fun _ b => "-" ++ b) "row_[0]") := by
  constructor <;> decide +kernel

end Verif.Agg
