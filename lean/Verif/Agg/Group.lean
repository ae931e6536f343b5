import Verif.Agg.Dedup

/-! # The group-by loop -/

set_option autoImplicit false

namespace Verif.Agg

open Verif

variable {R V E K : Type}

/-! ## Keys in order of first appearance -/

theorem any_firstSeen [BEq K] [EquivBEq K] (ks : List K) (k : K) :
    (firstSeen ks).any (· == k) = ks.any (· == k) := by
  induction ks with
  | nil => rfl
  | cons a ks ih =>
    simp only [firstSeen, List.any_cons, ← ih]
    by_cases h : a == k
    · simp [h]
    · simp only [h, Bool.false_or]
      rw [Bool.eq_iff_iff, List.any_eq_true, List.any_eq_true]
      constructor
      · rintro ⟨x, hx, hxk⟩
        exact ⟨x, (List.mem_filter.1 hx).1, hxk⟩
      · rintro ⟨x, hx, hxk⟩
        refine ⟨x, List.mem_filter.2 ⟨hx, ?_⟩, hxk⟩
        cases hax : a == x with
        | false => rfl
        | true => exact absurd (BEq.trans hax hxk) h

theorem firstSeen_snoc [BEq K] [EquivBEq K] (ks : List K) (k : K) :
    firstSeen (ks ++ [k]) =
      if ks.any (· == k) then firstSeen ks else firstSeen ks ++ [k] := by
  induction ks with
  | nil => simp [firstSeen]
  | cons a ks ih =>
    simp only [List.cons_append, firstSeen, ih, List.any_cons]
    by_cases hk : ks.any (· == k)
    · simp [hk]
    · simp only [hk, Bool.false_eq_true, if_false, Bool.or_false, List.filter_append]
      by_cases ha : a == k
      · simp [ha]
      · simp [ha]

/-- The keys of `firstSeen` are pairwise different. -/
theorem firstSeen_pairwise [BEq K] [EquivBEq K] (ks : List K) :
    (firstSeen ks).Pairwise (fun a b => (a == b) = false) := by
  induction ks with
  | nil => simp [firstSeen]
  | cons a ks ih =>
    simp only [firstSeen, List.pairwise_cons]
    refine ⟨?_, ih.sublist List.filter_sublist⟩
    intro b hb
    simpa using (List.mem_filter.1 hb).2

theorem keys_set_firstSeen {S : Type} [BEq K] [EquivBEq K] (d : List (K × S)) (ks : List K) (k : K)
    (s : S) (hkeys : Dict.keys d = firstSeen ks) :
    Dict.keys (Dict.set d k s) = firstSeen (ks ++ [k]) := by
  rw [firstSeen_snoc]
  by_cases hh : Dict.has d k = true
  · rw [Dict.set_keys_of_has _ _ _ hh, hkeys]
    have : ks.any (· == k) = true := by
      rw [← any_firstSeen, ← hkeys, List.any_eq_true]
      obtain ⟨a, ha, hak⟩ := (Dict.get?_isSome_iff d k).1 hh
      exact ⟨a, ha, hak⟩
    simp [this]
  · have hh' : Dict.has d k = false := by simpa using hh
    have : ks.any (· == k) = false := by
      cases hc : ks.any (· == k) with
      | false => rfl
      | true =>
        rw [← any_firstSeen, ← hkeys, List.any_eq_true] at hc
        obtain ⟨a, ha, hak⟩ := hc
        exact absurd ((Dict.get?_isSome_iff d k).2 ⟨a, ha, hak⟩) hh
    rw [Dict.set_of_not_has _ _ _ hh', this]
    simp only [Dict.keys, List.map_append, List.map_cons, List.map_nil, Bool.false_eq_true,
      if_false]
    rw [← hkeys, Dict.keys]

theorem keysOf_snoc (keyOf : R → Except E K) (rows : List R) (row : R) (ks : List K) :
    keysOf keyOf (rows ++ [row]) = .ok ks ↔
      ∃ ks' k, keysOf keyOf rows = .ok ks' ∧ keyOf row = .ok k ∧ ks = ks' ++ [k] := by
  induction rows generalizing ks with
  | nil =>
    simp only [List.nil_append, keysOf]
    cases h : keyOf row with
    | error e => simp
    | ok k => simp [eq_comm]
  | cons a rows ih =>
    simp only [List.cons_append, keysOf]
    cases h : keyOf a with
    | error e => simp
    | ok b =>
      cases hp : keysOf keyOf (rows ++ [row]) with
      | error e =>
        have hno : ¬ ∃ ks, keysOf keyOf (rows ++ [row]) = .ok ks := by simp [hp]
        constructor
        · intro h; simp at h
        · rintro ⟨ks', k, h1, h2, _⟩
          cases hp2 : keysOf keyOf rows with
          | error e => simp [hp2] at h1
          | ok k2 => exact (hno ⟨_, (ih _).2 ⟨k2, k, hp2, h2, rfl⟩⟩).elim
      | ok k1 =>
        obtain ⟨k2, k, h1, h2, h3⟩ := (ih _).1 hp
        subst h3
        simp only [h1, h2]
        simp [eq_comm]

theorem keysOf_append_ok (keyOf : R → Except E K) (rows rows' : List R) (ks : List K)
    (h : keysOf keyOf (rows ++ rows') = .ok ks) : ∃ ks', keysOf keyOf rows = .ok ks' := by
  induction rows generalizing ks with
  | nil => exact ⟨[], rfl⟩
  | cons a rows ih =>
    simp only [List.cons_append, keysOf] at h ⊢
    cases hk : keyOf a with
    | error e => simp [hk] at h
    | ok k =>
      cases hr : keysOf keyOf (rows ++ rows') with
      | error e => simp [hk, hr] at h
      | ok k1 =>
        obtain ⟨k2, h2⟩ := ih _ hr
        exact ⟨k :: k2, by simp [h2]⟩

theorem keysOf_mem_append (keyOf : R → Except E K) (rows : List R) (k : K) :
    ∀ (l : List R) (k1 k2 : List K), keysOf keyOf (l ++ rows) = .ok k1 →
      keysOf keyOf l = .ok k2 → k ∈ k2 → k ∈ k1 := by
  intro l
  induction l with
  | nil =>
    intro k1 k2 _ h2 h3
    simp only [keysOf, Except.ok.injEq] at h2; subst h2; simp at h3
  | cons a l ihl =>
    intro k1 k2 h1 h2 h3
    simp only [List.cons_append, keysOf] at h1 h2
    cases ha : keyOf a with
    | error e => simp [ha] at h1
    | ok b =>
      cases hr1 : keysOf keyOf (l ++ rows) with
      | error e => simp [ha, hr1] at h1
      | ok k1' =>
        cases hr2 : keysOf keyOf l with
        | error e => simp [ha, hr2] at h2
        | ok k2' =>
          simp only [ha, hr1, Except.ok.injEq] at h1
          simp only [ha, hr2, Except.ok.injEq] at h2
          subst h1 h2
          rcases List.mem_cons.1 h3 with rfl | h3
          · simp
          · simp [ihl k1' k2' hr1 hr2 h3]

theorem rowsWith_snoc_same [BEq K] (keyOf : R → Except E K) (k k' : K) (rows : List R) (row : R)
    (hk : keyOf row = .ok k') :
    rowsWith keyOf k (rows ++ [row]) =
      if k' == k then rowsWith keyOf k rows ++ [row] else rowsWith keyOf k rows := by
  simp only [rowsWith, List.filter_append, List.filter_cons, List.filter_nil, hk]
  by_cases h : k' == k <;> simp [h]

theorem rowsWith_congr [BEq K] [EquivBEq K] (keyOf : R → Except E K) (k k' : K) (h : k == k')
    (rows : List R) : rowsWith keyOf k rows = rowsWith keyOf k' rows := by
  unfold rowsWith
  congr 1
  funext row
  cases keyOf row with
  | error e => rfl
  | ok a => exact BEq.congr_right h

theorem rowsWith_eq_nil [BEq K] (keyOf : R → Except E K) (k : K) (rows : List R) (ks : List K)
    (h : keysOf keyOf rows = .ok ks) (hk : ks.any (· == k) = false) :
    rowsWith keyOf k rows = [] := by
  induction rows generalizing ks with
  | nil => rfl
  | cons a rows ih =>
    simp only [keysOf] at h
    cases ha : keyOf a with
    | error e => simp [ha] at h
    | ok b =>
      cases hr : keysOf keyOf rows with
      | error e => simp [ha, hr] at h
      | ok k1 =>
        simp only [ha, hr, Except.ok.injEq] at h
        subst h
        simp only [List.any_cons, Bool.or_eq_false_iff] at hk
        have := ih k1 hr hk.2
        simp only [rowsWith, List.filter_cons, ha, hk.1] at this ⊢
        simpa using this

theorem alone_append_ok (condSem : String → R → Except E Bool) (r : Red R V E)
    (rows rows' : List R) (v : Option V) (h : alone condSem r (rows ++ rows') = .ok v) :
    ∃ w, alone condSem r rows = .ok w := by
  suffices hs : ∀ ys : List R, ∀ v, alone condSem r (rows ++ ys.reverse) = .ok v →
      ∃ w, alone condSem r rows = .ok w from hs rows'.reverse v (by simpa using h)
  intro ys
  induction ys with
  | nil => intro v h; exact ⟨v, by simpa using h⟩
  | cons y ys ih =>
    intro v h
    rw [List.reverse_cons, ← List.append_assoc] at h
    obtain ⟨w, hw, _⟩ := (alone_snoc ..).1 h
    exact ih w hw

/-- If every reduce succeeds on the row, so does the code of all blocks. -/
theorem runBlocks_exists (condSem : String → R → Except E Bool) (row : R)
    (blocks : List (Block R V E)) (s0 : Slots V) (hb : ∀ b ∈ blocks, BlockOk b)
    (hnd : ((allParts blocks).map Prod.fst).Nodup) (hsync : ∀ b ∈ blocks, Sync b s0)
    (hstep : ∀ p ∈ allParts blocks, ∃ v, stepRed condSem p.2 row (s0 p.1) = .ok v) :
    ∃ s, runBlocks condSem row blocks s0 = .ok s := by
  let s : Slots V := fun j =>
    match (allParts blocks).find? (fun p => p.1 == j) with
    | none => s0 j
    | some p =>
      match stepRed condSem p.2 row (s0 p.1) with
      | .ok v => v
      | .error _ => none
  refine ⟨s, ?_⟩
  rw [runBlocks_iff condSem row blocks _ s hb hnd hsync]
  constructor
  · intro p hp
    obtain ⟨v, hv⟩ := hstep p hp
    have hfind : (allParts blocks).find? (fun q => q.1 == p.1) = some p := by
      revert hp hnd
      generalize allParts blocks = l
      intro hn hp
      induction l with
      | nil => simp at hp
      | cons q l ihl =>
        simp only [List.map_cons, List.nodup_cons] at hn
        rcases List.mem_cons.1 hp with rfl | hp
        · simp
        · have hne : (q.1 == p.1) = false := by
            cases hq : q.1 == p.1 with
            | false => rfl
            | true =>
              exact absurd (List.mem_map_of_mem hp) (eq_of_beq hq ▸ hn.1)
          rw [List.find?_cons]
          simp only [hne]
          exact ihl hn.2 hp
    show _ = Except.ok (s p.1)
    simp only [s, hfind, hv]
  · intro j hj
    have hfind : (allParts blocks).find? (fun q => q.1 == j) = none := by
      rw [List.find?_eq_none]
      intro q hq hqj
      exact hj (eq_of_beq hqj ▸ List.mem_map_of_mem hq)
    simp only [s, hfind]

/-! ## The loop -/

/-- What the dictionary holds after the rows `pre`. -/
structure GInv [BEq K] (condSem : String → R → Except E Bool) (blocks : List (Block R V E))
    (keyOf : R → Except E K) (pre : List R) (d : List (K × Slots V)) : Prop where
  keys : ∃ ks, keysOf keyOf pre = .ok ks ∧ Dict.keys d = firstSeen ks
  vals : ∀ k, ∀ p ∈ allParts blocks, alone condSem p.2 (rowsWith keyOf k pre) =
    .ok (((Dict.get? d k).getD fresh) p.1)
  sync : ∀ k, ∀ b ∈ blocks, Sync b ((Dict.get? d k).getD fresh)

/-- The blocks a group loop is run with. -/
structure BlocksOk (blocks : List (Block R V E)) : Prop where
  ok : ∀ b ∈ blocks, BlockOk b
  nodup : ((allParts blocks).map Prod.fst).Nodup
  inits : ∀ b ∈ blocks, ∀ p ∈ b.parts, Inits p.2
  keeps : ∀ b ∈ blocks, ∀ p ∈ b.parts, p.2.uncond = true → Keeps p.2

theorem gInv_nil [BEq K] (condSem : String → R → Except E Bool) (blocks : List (Block R V E))
    (keyOf : R → Except E K) : GInv condSem blocks keyOf [] [] := by
  refine ⟨⟨[], rfl, rfl⟩, ?_, ?_⟩
  · intro k p _
    simp [rowsWith, alone_nil, Dict.get?, fresh]
  · intro k b _ p _
    simp [Dict.get?, fresh]

theorem gInv_step [BEq K] [EquivBEq K] (condSem : String → R → Except E Bool)
    (blocks : List (Block R V E)) (keyOf : R → Except E K) (hb : BlocksOk blocks) (pre : List R)
    (d : List (K × Slots V)) (h : GInv condSem blocks keyOf pre d) (row : R) (k : K)
    (hk : keyOf row = .ok k) (s : Slots V)
    (hr : runBlocks condSem row blocks ((Dict.get? d k).getD fresh) = .ok s) :
    GInv condSem blocks keyOf (pre ++ [row]) (Dict.set d k s) := by
  obtain ⟨ks, hks, hkeys⟩ := h.keys
  have hr' := (runBlocks_iff condSem row blocks _ s hb.ok hb.nodup (h.sync k)).1 hr
  refine ⟨⟨ks ++ [k], (keysOf_snoc ..).2 ⟨ks, k, hks, hk, rfl⟩, ?_⟩, ?_, ?_⟩
  · exact keys_set_firstSeen d ks k s hkeys
  · intro k' p hp
    rw [rowsWith_snoc_same keyOf k' k pre row hk, Dict.get?_set]
    by_cases hkk : k == k'
    · simp only [hkk, if_true, Option.getD_some]
      refine (alone_snoc ..).2 ⟨_, h.vals k' p hp, ?_⟩
      have h1 : (Dict.get? d k').getD fresh p.1 = (Dict.get? d k).getD fresh p.1 := by
        have a := h.vals k' p hp
        rw [← rowsWith_congr keyOf k k' hkk, h.vals k p hp] at a
        simpa using a.symm
      rw [h1]
      exact hr'.1 p hp
    · simp only [hkk, Bool.false_eq_true, if_false]
      exact h.vals k' p hp
  · intro k' b hb'
    rw [Dict.get?_set]
    by_cases hkk : k == k'
    · simp only [hkk, if_true, Option.getD_some]
      refine step_sync condSem row b _ s (hb.ok b hb') (h.sync k b hb') (hb.inits b hb')
        (hb.keeps b hb') ?_
      intro p hp
      exact hr'.1 p (List.mem_flatMap.2 ⟨b, hb', hp⟩)
    · simp only [hkk, Bool.false_eq_true, if_false]
      exact h.sync k' b hb'

theorem groupLoop_sound [BEq K] [EquivBEq K] (condSem : String → R → Except E Bool)
    (blocks : List (Block R V E)) (keyOf : R → Except E K) (hb : BlocksOk blocks) (rows : List R) :
    ∀ (pre : List R) (d d' : List (K × Slots V)), GInv condSem blocks keyOf pre d →
      groupLoop condSem blocks keyOf rows d = .ok d' →
      GInv condSem blocks keyOf (pre ++ rows) d' := by
  induction rows with
  | nil =>
    intro pre d d' h hr
    simp only [groupLoop, Except.ok.injEq] at hr
    subst hr; simpa using h
  | cons row rows ih =>
    intro pre d d' h hr
    simp only [groupLoop] at hr
    cases hk : keyOf row with
    | error e => simp [hk] at hr
    | ok k =>
      simp only [hk] at hr
      cases hs : runBlocks condSem row blocks ((Dict.get? d k).getD fresh) with
      | error e => simp [hs] at hr
      | ok s =>
        simp only [hs] at hr
        have := ih _ _ _ (gInv_step condSem blocks keyOf hb pre d h row k hk s hs) hr
        simpa using this

theorem groupLoop_complete [BEq K] [EquivBEq K] (condSem : String → R → Except E Bool)
    (blocks : List (Block R V E)) (keyOf : R → Except E K) (hb : BlocksOk blocks) (rows : List R) :
    ∀ (pre : List R) (d : List (K × Slots V)) (ks : List K), GInv condSem blocks keyOf pre d →
      keysOf keyOf (pre ++ rows) = .ok ks →
      (∀ k ∈ ks, ∀ p ∈ allParts blocks, ∃ v,
        alone condSem p.2 (rowsWith keyOf k (pre ++ rows)) = .ok v) →
      ∃ d', groupLoop condSem blocks keyOf rows d = .ok d' := by
  induction rows with
  | nil => intro pre d ks _ _ _; exact ⟨d, rfl⟩
  | cons row rows ih =>
    intro pre d ks h hks hall
    have hsplit : pre ++ row :: rows = (pre ++ [row]) ++ rows := by simp
    rw [hsplit] at hks hall
    obtain ⟨ks1, hks1⟩ := keysOf_append_ok _ _ _ _ hks
    obtain ⟨ks0, k, hks0, hk, rfl⟩ := (keysOf_snoc ..).1 hks1
    have hmem : k ∈ ks := keysOf_mem_append keyOf rows k _ _ _ hks hks1 (by simp)
    -- the row's steps all succeed
    have hstep : ∀ p ∈ allParts blocks, ∃ v,
        stepRed condSem p.2 row ((Dict.get? d k).getD fresh p.1) = .ok v := by
      intro p hp
      obtain ⟨v, hv⟩ := hall k hmem p hp
      have : rowsWith keyOf k (pre ++ [row] ++ rows) =
          rowsWith keyOf k (pre ++ [row]) ++ rowsWith keyOf k rows := by
        exact List.filter_append ..
      rw [this] at hv
      obtain ⟨w, hw⟩ := alone_append_ok _ _ _ _ _ hv
      rw [rowsWith_snoc_same keyOf k k pre row hk] at hw
      simp only [BEq.rfl, if_true] at hw
      obtain ⟨v0, h0, h1⟩ := (alone_snoc ..).1 hw
      rw [h.vals k p hp] at h0
      simp only [Except.ok.injEq] at h0
      exact ⟨w, h0 ▸ h1⟩
    obtain ⟨s, hs⟩ := runBlocks_exists condSem row blocks _ hb.ok hb.nodup (h.sync k) hstep
    have hinv := gInv_step condSem blocks keyOf hb pre d h row k hk s hs
    obtain ⟨d', hd'⟩ := ih _ _ _ hinv hks hall
    exact ⟨d', by simp only [groupLoop, hk, hs]; exact hd'⟩

/-! ## The whole group-by -/

theorem compile_blocksOk (aggMode : Bool) (rs : List (Red R V E)) (hi : ∀ r ∈ rs, Inits r)
    (hk : ∀ r ∈ rs, r.uncond = true → Keeps r) :
    BlocksOk (reduceBlocks (compile aggMode rs).items) := by
  have hnd := compile_slots_nodup aggMode rs
  have hred : ∀ b ∈ reduceBlocks (compile aggMode rs).items, ∀ p ∈ b.parts, p.2 ∈ rs := by
    intro b hb p hp
    have : p ∈ allParts (reduceBlocks (compile aggMode rs).items) :=
      List.mem_flatMap.2 ⟨b, hb, hp⟩
    obtain ⟨it, hit, rfl⟩ := List.mem_map.1 ((allParts_perm _).mem_iff.1 this)
    exact (compile_inv aggMode rs).reds it hit
  refine ⟨reduceBlocks_ok _ hnd, ?_, fun b hb p hp => hi _ (hred b hb p hp),
    fun b hb p hp => hk _ (hred b hb p hp)⟩
  rw [((allParts_perm _).map Prod.fst).nodup_iff, List.map_map]
  exact hnd

theorem eachGroup_iff [BEq K] (condSem : String → R → Except E Bool) (keyOf : R → Except E K)
    (rs : List (Red R V E)) (rows : List R) (ks : List K) (out : List (K × List (Option V))) :
    eachGroup condSem keyOf rs rows ks = .ok out ↔
      out.map Prod.fst = ks ∧
        ∀ p ∈ out, allAlone condSem (rowsWith keyOf p.1 rows) rs = .ok p.2 := by
  induction ks generalizing out with
  | nil =>
    simp only [eachGroup, Except.ok.injEq, List.map_eq_nil_iff]
    constructor
    · rintro rfl; simp
    · rintro ⟨rfl, _⟩; rfl
  | cons k ks ih =>
    simp only [eachGroup]
    have hR : (out.map Prod.fst = k :: ks ∧
        ∀ p ∈ out, allAlone condSem (rowsWith keyOf p.1 rows) rs = .ok p.2) ↔
        ∃ vs out', out = (k, vs) :: out' ∧ allAlone condSem (rowsWith keyOf k rows) rs = .ok vs ∧
          eachGroup condSem keyOf rs rows ks = .ok out' := by
      constructor
      · rintro ⟨h1, h2⟩
        cases out with
        | nil => simp at h1
        | cons q out' =>
          simp only [List.map_cons, List.cons.injEq] at h1
          obtain ⟨h3, h4⟩ := h1
          obtain ⟨a, vs⟩ := q
          simp only at h3
          subst h3
          exact ⟨vs, out', rfl, h2 (a, vs) (by simp), (ih _).2 ⟨h4, fun p hp => h2 p (by simp [hp])⟩⟩
      · rintro ⟨vs, out', rfl, h1, h2⟩
        obtain ⟨h3, h4⟩ := (ih _).1 h2
        refine ⟨by simp [h3], ?_⟩
        intro p hp
        rcases List.mem_cons.1 hp with rfl | hp
        · exact h1
        · exact h4 p hp
    rw [hR]
    cases h1 : allAlone condSem (rowsWith keyOf k rows) rs with
    | error e => simp
    | ok vs =>
      cases h2 : eachGroup condSem keyOf rs rows ks with
      | error e => simp
      | ok o => simp [eq_comm]

theorem get?_of_mem [BEq K] [EquivBEq K] (d : List (K × V)) (k : K) (v : V) (h : (k, v) ∈ d)
    (hd : (Dict.keys d).Pairwise (fun a b => (a == b) = false)) : Dict.get? d k = some v := by
  induction d with
  | nil => simp at h
  | cons q d ih =>
    obtain ⟨a, w⟩ := q
    simp only [Dict.keys, List.map_cons, List.pairwise_cons] at hd
    rcases List.mem_cons.1 h with h | h
    · simp only [Prod.mk.injEq] at h
      obtain ⟨rfl, rfl⟩ := h
      simp [Dict.get?]
    · have hne := hd.1 k (List.mem_map.2 ⟨_, h, rfl⟩)
      simp only [Dict.get?, hne, Bool.false_eq_true, if_false]
      exact ih h hd.2

theorem groupBy_sound [BEq K] [EquivBEq K] (condSem : String → R → Except E Bool)
    (keyOf : R → Except E K) (rs : List (Red R V E)) (hf : Faithful rs) (hi : ∀ r ∈ rs, Inits r)
    (hk : ∀ r ∈ rs, r.uncond = true → Keeps r) (rows : List R) (d : List (K × Slots V))
    (h : groupLoop condSem (reduceBlocks (compile false rs).items) keyOf rows [] = .ok d) :
    groupSpec condSem keyOf rs rows =
      .ok (d.map (fun p => (p.1, (compile false rs).slotOf.map p.2))) := by
  have inv := groupLoop_sound condSem _ keyOf (compile_blocksOk false rs hi hk) rows [] [] d
    (gInv_nil condSem _ keyOf) h
  simp only [List.nil_append] at inv
  obtain ⟨ks, hks, hkeys⟩ := inv.keys
  simp only [groupSpec, hks]
  rw [eachGroup_iff]
  constructor
  · rw [List.map_map, ← hkeys]; rfl
  · intro p hp
    obtain ⟨⟨k, s⟩, hm, rfl⟩ := List.mem_map.1 hp
    have hg : Dict.get? d k = some s :=
      get?_of_mem d k s hm (hkeys ▸ firstSeen_pairwise ks)
    apply read_slots false condSem rs hf
    intro q hq
    have := inv.vals k q hq
    simpa [hg] using this

theorem groupBy_complete [BEq K] [EquivBEq K] (condSem : String → R → Except E Bool)
    (keyOf : R → Except E K) (rs : List (Red R V E)) (hi : ∀ r ∈ rs, Inits r)
    (hk : ∀ r ∈ rs, r.uncond = true → Keeps r) (rows : List R)
    (out : List (K × List (Option V))) (h : groupSpec condSem keyOf rs rows = .ok out) :
    ∃ d, groupLoop condSem (reduceBlocks (compile false rs).items) keyOf rows [] = .ok d := by
  unfold groupSpec at h
  cases hks : keysOf keyOf rows with
  | error e => simp [hks] at h
  | ok ks =>
    simp only [hks] at h
    obtain ⟨h1, h2⟩ := (eachGroup_iff ..).1 h
    refine groupLoop_complete condSem _ keyOf (compile_blocksOk false rs hi hk) rows [] [] ks
      (gInv_nil condSem _ keyOf) (by simpa using hks) ?_
    intro k hkm p hp
    have hany : (firstSeen ks).any (· == k) = true := by
      rw [any_firstSeen, List.any_eq_true]
      exact ⟨k, hkm, BEq.rfl⟩
    obtain ⟨k', hk', hkk⟩ := List.any_eq_true.1 hany
    rw [← h1] at hk'
    obtain ⟨q, hq, rfl⟩ := List.mem_map.1 hk'
    have := parts_ok false condSem rs _ _ (h2 q hq) p hp
    rw [rowsWith_congr keyOf _ _ hkk] at this
    simpa using this

end Verif.Agg
