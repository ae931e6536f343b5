import Verif.Agg.Group

/-! # The two loops of `c.aggregate` -/

set_option autoImplicit false

namespace Verif.Agg

open Verif

variable {R V E K : Type}

theorem runBlockAgg_slots (condSem : String → R → Except E Bool) (expected : Nat) (row : R)
    (b : Block R V E) (st st' : AggState V) (ctl : Ctl)
    (h : runBlockAgg condSem expected row b st = .ok (st', ctl)) :
    runBlock condSem row b st.slots = .ok st'.slots ∧
      (st'.checksum = st.checksum ∨
        (st'.checksum = (st.checksum ||| b.flag) ∧ st'.slots b.head ≠ none)) ∧
      (ctl = .break → st'.checksum = expected ∧ st.slots b.head = none) := by
  unfold runBlockAgg at h
  unfold runBlock
  cases hc : condHolds condSem row b.cond with
  | error e => simp [hc] at h
  | ok c =>
    cases c with
    | false =>
      simp only [hc, Except.ok.injEq, Prod.mk.injEq] at h
      obtain ⟨rfl, rfl⟩ := h
      simp
    | true =>
      simp only [hc] at h
      cases hh : st.slots b.head with
      | none =>
        simp only [hh] at h
        cases hr : runParts .init row b.parts st.slots with
        | error e => simp [hr] at h
        | ok s =>
          simp only [hr] at h
          cases hsh : s b.head with
          | none =>
            simp only [hsh, Except.ok.injEq, Prod.mk.injEq] at h
            obtain ⟨rfl, rfl⟩ := h
            simp
          | some x =>
            simp only [hsh] at h
            split at h
            · next he =>
              simp only [Except.ok.injEq, Prod.mk.injEq] at h
              obtain ⟨rfl, rfl⟩ := h
              simp [hsh, he]
            · simp only [Except.ok.injEq, Prod.mk.injEq] at h
              obtain ⟨rfl, rfl⟩ := h
              simp [hsh]
      | some x =>
        simp only [hh] at h
        cases hr : runParts .two row b.parts st.slots with
        | error e => simp [hr] at h
        | ok s =>
          simp only [hr, Except.ok.injEq, Prod.mk.injEq] at h
          obtain ⟨rfl, rfl⟩ := h
          simp

theorem runBlockAgg_exists (condSem : String → R → Except E Bool) (expected : Nat) (row : R)
    (b : Block R V E) (st : AggState V) (s : Slots V)
    (h : runBlock condSem row b st.slots = .ok s) :
    ∃ st' ctl, runBlockAgg condSem expected row b st = .ok (st', ctl) ∧ st'.slots = s := by
  unfold runBlock at h
  unfold runBlockAgg
  cases hc : condHolds condSem row b.cond with
  | error e => simp [hc] at h
  | ok c =>
    cases c with
    | false => simp only [hc, Except.ok.injEq] at h; exact ⟨_, _, rfl, h⟩
    | true =>
      simp only [hc] at h
      cases hh : st.slots b.head with
      | none =>
        simp only [hh] at h
        simp only [h]
        cases hsh : s b.head with
        | none => exact ⟨_, _, rfl, rfl⟩
        | some x =>
          simp only
          split
          · exact ⟨_, _, rfl, rfl⟩
          · exact ⟨_, _, rfl, rfl⟩
      | some x =>
        simp only [hh] at h
        simp only [h]
        exact ⟨_, _, rfl, rfl⟩

/-- One turn of the first loop: a prefix of the blocks is executed; it is all of them unless the
loop is left. -/
theorem runBlocksAgg_spec (condSem : String → R → Except E Bool) (expected : Nat) (row : R)
    (bs : List (Block R V E)) (hb : ∀ b ∈ bs, BlockOk b)
    (hnd : ((allParts bs).map Prod.fst).Nodup) :
    ∀ (st st' : AggState V) (ctl : Ctl), (∀ b ∈ bs, Sync b st.slots) →
      runBlocksAgg condSem expected row bs st = .ok (st', ctl) →
      ∃ bs1 bs2, bs = bs1 ++ bs2 ∧ runBlocks condSem row bs1 st.slots = .ok st'.slots ∧
        (ctl = .next → bs2 = []) ∧
        (ctl = .break → st'.checksum = expected ∧
          ∃ b ∈ bs1, st.slots b.head = none) ∧
        (∀ n, st'.checksum.testBit n = true → st.checksum.testBit n = true ∨
          ∃ b ∈ bs1, st'.slots b.head ≠ none ∧ b.flag.testBit n = true) := by
  induction bs with
  | nil =>
    intro st st' ctl _ h
    simp only [runBlocksAgg, Except.ok.injEq, Prod.mk.injEq] at h
    obtain ⟨rfl, rfl⟩ := h
    exact ⟨[], [], rfl, rfl, by simp, by simp, by simp⟩
  | cons b bs ih =>
    intro st st' ctl hs h
    have hall : allParts (b :: bs) = b.parts ++ allParts bs := by simp [allParts]
    rw [hall, List.map_append, List.nodup_append] at hnd
    obtain ⟨hn1, hn2, hdis⟩ := hnd
    have hb0 := hb b (by simp)
    simp only [runBlocksAgg] at h
    cases hr : runBlockAgg condSem expected row b st with
    | error e => simp [hr] at h
    | ok q =>
      obtain ⟨st1, c1⟩ := q
      obtain ⟨hrun, hcs, hbr⟩ := runBlockAgg_slots _ _ _ _ _ _ _ hr
      cases c1 with
      | «break» =>
        simp only [hr, Except.ok.injEq, Prod.mk.injEq] at h
        obtain ⟨rfl, rfl⟩ := h
        refine ⟨[b], bs, rfl, by simp [runBlocks, hrun], by simp, ?_, ?_⟩
        · intro _
          exact ⟨(hbr rfl).1, b, by simp, (hbr rfl).2⟩
        · intro n hn
          rcases hcs with hcs | ⟨hcs, hne⟩
          · left; rwa [hcs] at hn
          · rw [hcs, Nat.testBit_or, Bool.or_eq_true] at hn
            rcases hn with hn | hn
            · exact Or.inl hn
            · exact Or.inr ⟨b, by simp, hne, hn⟩
      | next =>
        simp only [hr] at h
        have hri := (runBlock_iff condSem row b st.slots st1.slots hb0 (hs b (by simp))).1 hrun
        have hmem : ∀ b' ∈ bs, ∀ p ∈ b'.parts, p.1 ∈ (allParts bs).map Prod.fst := by
          intro b' hb' p hp
          exact List.mem_map_of_mem (List.mem_flatMap.2 ⟨b', hb', hp⟩)
        have hhead : ∀ b' ∈ bs, b'.head ∈ (allParts bs).map Prod.fst := by
          intro b' hb'
          obtain ⟨r, hr⟩ := (hb b' (by simp [hb'])).headMem
          exact hmem b' hb' _ hr
        have hsame : ∀ j ∈ (allParts bs).map Prod.fst, st1.slots j = st.slots j :=
          fun j hj => hri.2 j (fun hc => hdis _ hc _ hj rfl)
        have hsync1 : ∀ b' ∈ bs, Sync b' st1.slots := by
          intro b' hb' p hp
          rw [hsame _ (hmem b' hb' p hp), hsame _ (hhead b' hb')]
          exact hs b' (by simp [hb']) p hp
        obtain ⟨bs1, bs2, e, h1, h2, h3, h4⟩ := ih (fun b' hb' => hb b' (by simp [hb'])) hn2 st1 st'
          ctl hsync1 h
        have hsub : ∀ b' ∈ bs1, b' ∈ bs := fun b' hb' => by rw [e]; simp [hb']
        have hbhead : st'.slots b.head = st1.slots b.head := by
          have hnd1 : ((allParts bs1).map Prod.fst).Nodup := by
            rw [e] at hn2
            simp only [allParts, List.flatMap_append, List.map_append] at hn2 ⊢
            exact (List.nodup_append.1 hn2).1
          have := (runBlocks_iff condSem row bs1 st1.slots st'.slots
            (fun b' hb' => hb b' (by simp [hsub b' hb'])) hnd1
            (fun b' hb' => hsync1 b' (hsub b' hb'))).1 h1
          apply this.2
          intro hc
          obtain ⟨r0, hr0⟩ := hb0.headMem
          refine hdis b.head (List.mem_map.2 ⟨_, hr0, rfl⟩) b.head ?_ rfl
          obtain ⟨p, hp, hpe⟩ := List.mem_map.1 hc
          obtain ⟨b', hb', hp'⟩ := List.mem_flatMap.1 hp
          rw [← hpe]
          exact hmem b' (hsub b' hb') p hp'
        refine ⟨b :: bs1, bs2, by simp [e], by simp [runBlocks, hrun, h1], h2, ?_, ?_⟩
        · intro hc
          obtain ⟨h5, b', hb', h6⟩ := h3 hc
          refine ⟨h5, b', by simp [hb'], ?_⟩
          rwa [hsame _ (hhead b' (hsub b' hb'))] at h6
        · intro n hn
          rcases h4 n hn with hn | ⟨b', hb', h5, h6⟩
          · rcases hcs with hcs | ⟨hcs, hne⟩
            · left; rwa [hcs] at hn
            · rw [hcs, Nat.testBit_or, Bool.or_eq_true] at hn
              rcases hn with hn | hn
              · exact Or.inl hn
              · exact Or.inr ⟨b, by simp, by rwa [hbhead], hn⟩
          · exact Or.inr ⟨b', by simp [hb'], h5, h6⟩

theorem runBlocksAgg_exists (condSem : String → R → Except E Bool) (expected : Nat) (row : R)
    (bs : List (Block R V E)) : ∀ (st : AggState V) (s : Slots V),
      runBlocks condSem row bs st.slots = .ok s →
      ∃ st' ctl, runBlocksAgg condSem expected row bs st = .ok (st', ctl) := by
  induction bs with
  | nil => intro st s _; exact ⟨_, _, rfl⟩
  | cons b bs ih =>
    intro st s h
    simp only [runBlocks] at h
    cases hr : runBlock condSem row b st.slots with
    | error e => simp [hr] at h
    | ok s1 =>
      simp only [hr] at h
      obtain ⟨st1, c1, h1, h2⟩ := runBlockAgg_exists condSem expected row b st s1 hr
      simp only [runBlocksAgg, h1]
      cases c1 with
      | «break» => exact ⟨_, _, rfl⟩
      | next => exact ih st1 s (by rw [h2]; exact h)

/-- The blocks the aggregate loops are run with. -/
structure AggOk (expected : Nat) (blocks : List (Block R V E)) : Prop extends BlocksOk blocks where
  keepsAll : ∀ b ∈ blocks, ∀ p ∈ b.parts, Keeps p.2
  /-- when the checksum is made of flags of blocks, being complete means every block took part -/
  sum : ∀ (s : Slots V) (cs : Nat), (∀ b ∈ blocks, Sync b s) →
    (∀ n, cs.testBit n = true → ∃ b ∈ blocks, s b.head ≠ none ∧ b.flag.testBit n = true) →
    cs = expected → ∀ b ∈ blocks, s b.head ≠ none

/-- What the variables of the aggregate function hold after the rows `pre`. -/
structure AInv (condSem : String → R → Except E Bool) (blocks : List (Block R V E))
    (pre : List R) (s : Slots V) : Prop where
  vals : ∀ p ∈ allParts blocks, alone condSem p.2 pre = .ok (s p.1)
  sync : ∀ b ∈ blocks, Sync b s

/-- The last block is initialised no earlier than the others: after every prefix of the rows, if
the reduce at the head of the last block has a value then so have the others. -/
def LastLatest (condSem : String → R → Except E Bool) (blocks : List (Block R V E))
    (rows : List R) : Prop :=
  ∀ pre, pre <+: rows → ∀ b, blocks.getLast? = some b → ∀ p ∈ b.parts,
    (∃ x, alone condSem p.2 pre = .ok (some x)) →
    ∀ q ∈ allParts blocks, alone condSem q.2 pre ≠ .ok none

theorem aInv_step (condSem : String → R → Except E Bool) (blocks : List (Block R V E))
    (hb : BlocksOk blocks) (pre : List R) (row : R) (s s' : Slots V)
    (h : AInv condSem blocks pre s) (hr : runBlocks condSem row blocks s = .ok s') :
    AInv condSem blocks (pre ++ [row]) s' := by
  have hr' := (runBlocks_iff condSem row blocks s s' hb.ok hb.nodup h.sync).1 hr
  refine ⟨fun p hp => (alone_snoc ..).2 ⟨_, h.vals p hp, hr'.1 p hp⟩, ?_⟩
  intro b hb'
  exact step_sync condSem row b s s' (hb.ok b hb') (h.sync b hb') (hb.inits b hb')
    (hb.keeps b hb') (fun p hp => hr'.1 p (List.mem_flatMap.2 ⟨b, hb', hp⟩))

/-- A reduce that has a value keeps having one. -/
theorem stepRed_keeps (condSem : String → R → Except E Bool) (r : Red R V E) (hk : Keeps r)
    (row : R) (v v' : Option V) (hv : v ≠ none) (h : stepRed condSem r row v = .ok v') :
    v' ≠ none := by
  unfold stepRed at h
  cases hc : condHolds condSem row r.cond with
  | error e => simp [hc] at h
  | ok c =>
    cases c with
    | false => simp [hc] at h; rwa [← h]
    | true =>
      obtain ⟨x, rfl⟩ := Option.ne_none_iff_exists'.1 hv
      simp only [hc] at h
      exact hk _ _ _ h

theorem head_part (b : Block R V E) (blocks : List (Block R V E)) (hb : BlocksOk blocks)
    (hm : b ∈ blocks) : ∃ p ∈ b.parts, p.1 = b.head ∧ p ∈ allParts blocks := by
  obtain ⟨r, hr⟩ := (hb.ok b hm).headMem
  exact ⟨_, hr, rfl, List.mem_flatMap.2 ⟨b, hm, hr⟩⟩

theorem aggLoop1_sound (condSem : String → R → Except E Bool) (expected : Nat)
    (blocks : List (Block R V E)) (hb : AggOk expected blocks) (rows : List R) :
    ∀ (pre : List R) (st st' : AggState V) (rest : List R),
      LastLatest condSem blocks (pre ++ rows) →
      AInv condSem blocks pre st.slots →
      (∀ n, st.checksum.testBit n = true →
        ∃ b ∈ blocks, st.slots b.head ≠ none ∧ b.flag.testBit n = true) →
      aggLoop1 condSem expected blocks rows st = .ok (st', rest) →
      ∃ mid, rows = mid ++ rest ∧ AInv condSem blocks (pre ++ mid) st'.slots ∧
        (rest = [] ∨ ∀ b ∈ blocks, st'.slots b.head ≠ none) := by
  induction rows with
  | nil =>
    intro pre st st' rest _ hinv _ h
    simp only [aggLoop1, Except.ok.injEq, Prod.mk.injEq] at h
    obtain ⟨rfl, rfl⟩ := h
    exact ⟨[], rfl, by simpa using hinv, Or.inl rfl⟩
  | cons row rows ih =>
    intro pre st st' rest hll hinv hcs h
    simp only [aggLoop1] at h
    cases hr : runBlocksAgg condSem expected row blocks st with
    | error e => simp [hr] at h
    | ok q =>
      obtain ⟨st1, ctl⟩ := q
      obtain ⟨bs1, bs2, e, h1, h2, h3, h4⟩ := runBlocksAgg_spec condSem expected row blocks hb.ok
        hb.nodup st st1 ctl hinv.sync hr
      -- the executed blocks, as a step of every slot
      have hnd1 : ((allParts bs1).map Prod.fst).Nodup := by
        have := hb.nodup
        rw [e] at this
        simp only [allParts, List.flatMap_append, List.map_append] at this ⊢
        exact (List.nodup_append.1 this).1
      have hsub : ∀ b ∈ bs1, b ∈ blocks := fun b hbm => by rw [e]; simp [hbm]
      have h1' := (runBlocks_iff condSem row bs1 st.slots st1.slots
        (fun b hbm => hb.ok b (hsub b hbm)) hnd1 (fun b hbm => hinv.sync b (hsub b hbm))).1 h1
      -- a set slot stays set
      have hkeep : ∀ b ∈ blocks, st.slots b.head ≠ none → st1.slots b.head ≠ none := by
        intro b hbm hne
        by_cases hin : b.head ∈ (allParts bs1).map Prod.fst
        · obtain ⟨p, hp, hpe⟩ := List.mem_map.1 hin
          obtain ⟨b', hb', hp'⟩ := List.mem_flatMap.1 hp
          have := h1'.1 p hp
          rw [hpe] at this
          exact stepRed_keeps condSem p.2 (hb.keepsAll b' (hsub b' hb') p hp') row _ _ hne this
        · rw [h1'.2 _ hin]; exact hne
      have hcs1 : ∀ n, st1.checksum.testBit n = true →
          ∃ b ∈ blocks, st1.slots b.head ≠ none ∧ b.flag.testBit n = true := by
        intro n hn
        rcases h4 n hn with hn | ⟨b, hbm, h5, h6⟩
        · obtain ⟨b, hbm, h5, h6⟩ := hcs n hn
          exact ⟨b, hbm, hkeep b hbm h5, h6⟩
        · exact ⟨b, hsub b hbm, h5, h6⟩
      -- synchronisation also holds in the middle of a row
      have hsync1 : ∀ b ∈ blocks, Sync b st1.slots := by
        intro b hbm
        rw [e] at hbm
        rcases List.mem_append.1 hbm with hb1 | hb2
        · exact step_sync condSem row b _ _ (hb.ok b (hsub b hb1)) (hinv.sync b (hsub b hb1))
            (hb.inits b (hsub b hb1)) (hb.keeps b (hsub b hb1))
            (fun p hp => h1'.1 p (List.mem_flatMap.2 ⟨b, hb1, hp⟩))
        · have hbm' : b ∈ blocks := by rw [e]; simp [hb2]
          have hout : ∀ p ∈ b.parts, st1.slots p.1 = st.slots p.1 := by
            intro p hp
            apply h1'.2
            intro hc
            have := hb.nodup
            rw [e] at this
            simp only [allParts, List.flatMap_append, List.map_append] at this
            exact (List.nodup_append.1 this).2.2 p.1 hc p.1
              (List.mem_map_of_mem (List.mem_flatMap.2 ⟨b, hb2, hp⟩)) rfl
          obtain ⟨p0, hp0, hpe0, _⟩ := head_part b blocks hb.toBlocksOk hbm'
          intro p hp
          rw [hout p hp, ← hpe0, hout p0 hp0, hpe0]
          exact hinv.sync b hbm' p hp
      cases ctl with
      | next =>
        simp only [hr] at h
        have : bs2 = [] := h2 rfl
        subst this
        rw [List.append_nil] at e
        subst e
        have hstep := aInv_step condSem blocks hb.toBlocksOk pre row _ _ hinv h1
        obtain ⟨mid, e1, e2, e3⟩ := ih (pre ++ [row]) st1 st' rest (by simpa using hll) hstep hcs1 h
        exact ⟨row :: mid, by simp [e1], by simpa using e2, e3⟩
      | «break» =>
        simp only [hr, Except.ok.injEq, Prod.mk.injEq] at h
        obtain ⟨rfl, rfl⟩ := h
        obtain ⟨h5, b, hb1, h6⟩ := h3 rfl
        have hdone := hb.sum st1.slots st1.checksum hsync1 hcs1 h5
        -- the skipped blocks would include the last one
        have hnil : bs2 = [] := by
          rcases List.eq_nil_or_concat bs2 with hn | ⟨init, last, hlast⟩
          · exact hn
          · exfalso
            have hlast' : bs2 = init ++ [last] := by simpa using hlast
            have hgl : blocks.getLast? = some last := by rw [e, hlast']; simp
            have hml : last ∈ blocks := by rw [e, hlast']; simp
            obtain ⟨p0, hp0, hpe0, hpa0⟩ := head_part last blocks hb.toBlocksOk hml
            have hout : st1.slots last.head = st.slots last.head := by
              apply h1'.2
              intro hc
              have := hb.nodup
              rw [e] at this
              simp only [allParts, List.flatMap_append, List.map_append] at this
              exact (List.nodup_append.1 this).2.2 last.head hc last.head
                (hpe0 ▸ List.mem_map_of_mem (List.mem_flatMap.2 ⟨last, by simp [hlast'], hp0⟩)) rfl
            have hset : st.slots last.head ≠ none := by rw [← hout]; exact hdone last hml
            obtain ⟨x, hx⟩ := Option.ne_none_iff_exists'.1 hset
            obtain ⟨q, hq, hqe, hqa⟩ := head_part b blocks hb.toBlocksOk (hsub b hb1)
            refine hll pre (List.prefix_append _ _) last hgl p0 hp0 ⟨x, ?_⟩ q hqa ?_
            · rw [hinv.vals p0 hpa0, hpe0, hx]
            · rw [hinv.vals q hqa, hqe, h6]
        subst hnil
        rw [List.append_nil] at e
        subst e
        exact ⟨[row], rfl, aInv_step condSem blocks hb.toBlocksOk pre row _ _ hinv h1,
          Or.inr hdone⟩

theorem noInit_eq (condSem : String → R → Except E Bool) (row : R) (b : Block R V E) (s : Slots V)
    (h : s b.head ≠ none) : runBlockNoInit condSem row b s = runBlock condSem row b s := by
  obtain ⟨x, hx⟩ := Option.ne_none_iff_exists'.1 h
  unfold runBlockNoInit runBlock
  rw [hx]

theorem noInits_eq (condSem : String → R → Except E Bool) (row : R) (bs : List (Block R V E))
    (hb : ∀ b ∈ bs, BlockOk b) (hnd : ((allParts bs).map Prod.fst).Nodup) :
    ∀ s : Slots V, (∀ b ∈ bs, Sync b s) → (∀ b ∈ bs, s b.head ≠ none) →
      runBlocksNoInit condSem row bs s = runBlocks condSem row bs s := by
  induction bs with
  | nil => intro s _ _; rfl
  | cons b bs ih =>
    intro s hs hne
    have hall : allParts (b :: bs) = b.parts ++ allParts bs := by simp [allParts]
    rw [hall, List.map_append, List.nodup_append] at hnd
    obtain ⟨hn1, hn2, hdis⟩ := hnd
    simp only [runBlocksNoInit, runBlocks, noInit_eq condSem row b s (hne b (by simp))]
    cases hr : runBlock condSem row b s with
    | error e => rfl
    | ok s1 =>
      have hri := (runBlock_iff condSem row b s s1 (hb b (by simp)) (hs b (by simp))).1 hr
      have hmem : ∀ b' ∈ bs, ∀ p ∈ b'.parts, p.1 ∈ (allParts bs).map Prod.fst := by
        intro b' hb' p hp
        exact List.mem_map_of_mem (List.mem_flatMap.2 ⟨b', hb', hp⟩)
      have hhead : ∀ b' ∈ bs, b'.head ∈ (allParts bs).map Prod.fst := by
        intro b' hb'
        obtain ⟨r, hr⟩ := (hb b' (by simp [hb'])).headMem
        exact hmem b' hb' _ hr
      have hsame : ∀ j ∈ (allParts bs).map Prod.fst, s1 j = s j :=
        fun j hj => hri.2 j (fun hc => hdis _ hc _ hj rfl)
      apply ih (fun b' hb' => hb b' (by simp [hb'])) hn2
      · intro b' hb' p hp
        rw [hsame _ (hmem b' hb' p hp), hsame _ (hhead b' hb')]
        exact hs b' (by simp [hb']) p hp
      · intro b' hb'
        rw [hsame _ (hhead b' hb')]
        exact hne b' (by simp [hb'])

theorem heads_stay (condSem : String → R → Except E Bool) (blocks : List (Block R V E))
    (hb : BlocksOk blocks) (hk : ∀ b ∈ blocks, ∀ p ∈ b.parts, Keeps p.2) (row : R) (s s' : Slots V)
    (hs : ∀ b ∈ blocks, Sync b s) (hne : ∀ b ∈ blocks, s b.head ≠ none)
    (hr : runBlocks condSem row blocks s = .ok s') : ∀ b ∈ blocks, s' b.head ≠ none := by
  intro b hbm
  have h1 := (runBlocks_iff condSem row blocks s s' hb.ok hb.nodup hs).1 hr
  obtain ⟨p, hp, hpe, hpa⟩ := head_part b blocks hb hbm
  have := h1.1 p hpa
  rw [hpe] at this
  exact stepRed_keeps condSem p.2 (hk b hbm p hp) row _ _ (hne b hbm) this

theorem aggLoop2_sound (condSem : String → R → Except E Bool) (blocks : List (Block R V E))
    (hb : BlocksOk blocks) (hk : ∀ b ∈ blocks, ∀ p ∈ b.parts, Keeps p.2) (rows : List R) :
    ∀ (pre : List R) (s s' : Slots V), AInv condSem blocks pre s →
      (∀ b ∈ blocks, s b.head ≠ none) → aggLoop2 condSem blocks rows s = .ok s' →
      AInv condSem blocks (pre ++ rows) s' := by
  induction rows with
  | nil =>
    intro pre s s' hinv _ h
    simp only [aggLoop2, Except.ok.injEq] at h
    subst h; simpa using hinv
  | cons row rows ih =>
    intro pre s s' hinv hne h
    simp only [aggLoop2, noInits_eq condSem row blocks hb.ok hb.nodup s hinv.sync hne] at h
    cases hr : runBlocks condSem row blocks s with
    | error e => simp [hr] at h
    | ok s1 =>
      simp only [hr] at h
      have := ih (pre ++ [row]) s1 s' (aInv_step condSem blocks hb pre row s s1 hinv hr)
        (heads_stay condSem blocks hb hk row s s1 hinv.sync hne hr) h
      simpa using this

theorem steps_ok (condSem : String → R → Except E Bool) (blocks : List (Block R V E))
    (pre rows : List R) (row : R) (s : Slots V) (hinv : AInv condSem blocks pre s)
    (hall : ∀ p ∈ allParts blocks, ∃ v, alone condSem p.2 (pre ++ row :: rows) = .ok v) :
    ∀ p ∈ allParts blocks, ∃ v, stepRed condSem p.2 row (s p.1) = .ok v := by
  intro p hp
  obtain ⟨v, hv⟩ := hall p hp
  have hsplit : pre ++ row :: rows = (pre ++ [row]) ++ rows := by simp
  rw [hsplit] at hv
  obtain ⟨w, hw⟩ := alone_append_ok _ _ _ _ _ hv
  obtain ⟨v0, h0, h1⟩ := (alone_snoc ..).1 hw
  rw [hinv.vals p hp] at h0
  simp only [Except.ok.injEq] at h0
  exact ⟨w, h0 ▸ h1⟩

theorem aggLoop2_complete (condSem : String → R → Except E Bool) (blocks : List (Block R V E))
    (hb : BlocksOk blocks) (hk : ∀ b ∈ blocks, ∀ p ∈ b.parts, Keeps p.2) (rows : List R) :
    ∀ (pre : List R) (s : Slots V), AInv condSem blocks pre s →
      (∀ b ∈ blocks, s b.head ≠ none) →
      (∀ p ∈ allParts blocks, ∃ v, alone condSem p.2 (pre ++ rows) = .ok v) →
      ∃ s', aggLoop2 condSem blocks rows s = .ok s' := by
  induction rows with
  | nil => intro pre s _ _ _; exact ⟨s, rfl⟩
  | cons row rows ih =>
    intro pre s hinv hne hall
    obtain ⟨s1, hs1⟩ := runBlocks_exists condSem row blocks s hb.ok hb.nodup hinv.sync
      (steps_ok condSem blocks pre rows row s hinv hall)
    simp only [aggLoop2, noInits_eq condSem row blocks hb.ok hb.nodup s hinv.sync hne, hs1]
    exact ih (pre ++ [row]) s1 (aInv_step condSem blocks hb pre row s s1 hinv hs1)
      (heads_stay condSem blocks hb hk row s s1 hinv.sync hne hs1) (by simpa using hall)

theorem aggLoop1_complete (condSem : String → R → Except E Bool) (expected : Nat)
    (blocks : List (Block R V E)) (hb : BlocksOk blocks) (rows : List R) :
    ∀ (pre : List R) (st : AggState V), AInv condSem blocks pre st.slots →
      (∀ p ∈ allParts blocks, ∃ v, alone condSem p.2 (pre ++ rows) = .ok v) →
      ∃ st' rest, aggLoop1 condSem expected blocks rows st = .ok (st', rest) := by
  induction rows with
  | nil => intro pre st _ _; exact ⟨_, _, rfl⟩
  | cons row rows ih =>
    intro pre st hinv hall
    obtain ⟨s1, hs1⟩ := runBlocks_exists condSem row blocks st.slots hb.ok hb.nodup hinv.sync
      (steps_ok condSem blocks pre rows row st.slots hinv hall)
    obtain ⟨st1, ctl, h1⟩ := runBlocksAgg_exists condSem expected row blocks st s1 hs1
    simp only [aggLoop1, h1]
    cases ctl with
    | «break» => exact ⟨_, _, rfl⟩
    | next =>
      obtain ⟨bs1, bs2, e, h3, h4, _, _⟩ := runBlocksAgg_spec condSem expected row blocks hb.ok
        hb.nodup st st1 .next hinv.sync h1
      have := h4 rfl
      subst this
      rw [List.append_nil] at e
      subst e
      exact ih (pre ++ [row]) st1 (aInv_step condSem blocks hb pre row _ _ hinv h3)
        (by simpa using hall)

/-! ## The flags of compiled blocks -/

theorem foldl_or_testBit (l : List (Block R V E)) (f n : Nat)
    (h : (l.foldl (fun f c => f ||| c.flag) f).testBit n = true) :
    f.testBit n = true ∨ ∃ c ∈ l, c.flag.testBit n = true := by
  induction l generalizing f with
  | nil => exact Or.inl h
  | cons c l ih =>
    rcases ih _ h with h1 | ⟨c', h1, h2⟩
    · rw [Nat.testBit_or, Bool.or_eq_true] at h1
      rcases h1 with h1 | h1
      · exact Or.inl h1
      · exact Or.inr ⟨c, by simp, h1⟩
    · exact Or.inr ⟨c', by simp [h1], h2⟩

theorem merged_flag (its : List (Item R V E)) (b : Block R V E)
    (h : mergeAll (its.map Item.block) = some b) (n : Nat) (hn : b.flag.testBit n = true) :
    ∃ it ∈ its, it.pair ∈ b.parts ∧ it.flag.testBit n = true := by
  have hp := mergeAll_parts its
  rw [h] at hp
  simp only [Option.toList_some, List.flatMap_cons, List.flatMap_nil, List.append_nil] at hp
  have key : ∃ it ∈ its, it.flag.testBit n = true := by
    cases its with
    | nil => simp [mergeAll] at h
    | cons it its =>
      simp only [List.map_cons, mergeAll, Option.some.injEq] at h
      rw [← h, (foldl_union _ _).2.2.2] at hn
      rcases foldl_or_testBit _ _ _ hn with h1 | ⟨c, hc, h1⟩
      · exact ⟨it, by simp, h1⟩
      · obtain ⟨it', hit', rfl⟩ := List.mem_map.1 hc
        exact ⟨it', by simp [hit'], h1⟩
  obtain ⟨it, h1, h2⟩ := key
  exact ⟨it, h1, hp ▸ List.mem_map_of_mem h1, h2⟩

theorem reduceBlocks_flag (items : List (Item R V E)) (b : Block R V E)
    (hb : b ∈ reduceBlocks items) (n : Nat) (hn : b.flag.testBit n = true) :
    ∃ it ∈ items, it.pair ∈ b.parts ∧ it.flag.testBit n = true := by
  unfold reduceBlocks at hb
  simp only [List.mem_append, List.mem_flatMap, List.mem_filterMap, Option.mem_toList,
    Option.mem_def, List.mem_map] at hb
  rcases hb with ((⟨p, hp, it, hit, rfl⟩ | ⟨p, hp, hm⟩) | hm) | ⟨it, hit, rfl⟩
  · have := (bucket_perm _ _).mem_iff.1 (List.mem_flatMap.2 ⟨p, hp, hit⟩)
    exact ⟨it, (List.mem_filter.1 this).1, by simp [Item.block, Item.pair], hn⟩
  · obtain ⟨it, h1, h2⟩ := merged_flag _ _ hm n hn
    have := (bucket_perm _ _).mem_iff.1 (List.mem_flatMap.2 ⟨p, hp, h1⟩)
    exact ⟨it, (List.mem_filter.1 this).1, h2⟩
  · obtain ⟨it, h1, h2⟩ := merged_flag _ _ hm n hn
    exact ⟨it, (List.mem_filter.1 h1).1, h2⟩
  · exact ⟨it, (List.mem_filter.1 hit).1, by simp [Item.block, Item.pair], hn⟩

theorem eq_of_flag_eq (l : List (Item R V E)) (h : (l.map Item.flag).Nodup) (a b : Item R V E)
    (ha : a ∈ l) (hb : b ∈ l) (e : a.flag = b.flag) : a = b := by
  induction l with
  | nil => simp at ha
  | cons c l ih =>
    simp only [List.map_cons, List.nodup_cons] at h
    rcases List.mem_cons.1 ha with ha' | ha' <;> rcases List.mem_cons.1 hb with hb' | hb'
    · rw [ha', hb']
    · exact absurd (List.mem_map_of_mem (f := Item.flag) hb') (by rw [← e, ha']; exact h.1)
    · exact absurd (List.mem_map_of_mem (f := Item.flag) ha') (by rw [e, hb']; exact h.1)
    · exact ih h.2 ha' hb'

theorem compile_aggOk (rs : List (Red R V E)) (hi : ∀ r ∈ rs, Inits r) (hk : ∀ r ∈ rs, Keeps r) :
    AggOk (compile true rs).expected (reduceBlocks (compile true rs).items) := by
  have hbo := compile_blocksOk true rs hi (fun r hr _ => hk r hr)
  have inv := compile_inv true rs
  have hred : ∀ b ∈ reduceBlocks (compile true rs).items, ∀ p ∈ b.parts,
      ∃ it ∈ (compile true rs).items, it.pair = p := by
    intro b hb p hp
    have : p ∈ allParts (reduceBlocks (compile true rs).items) :=
      List.mem_flatMap.2 ⟨b, hb, hp⟩
    exact List.mem_map.1 ((allParts_perm _).mem_iff.1 this)
  refine { hbo with keepsAll := ?_, sum := ?_ }
  · intro b hb p hp
    obtain ⟨it, hit, rfl⟩ := hred b hb p hp
    exact hk _ (inv.reds it hit)
  · intro s cs hs hcs he b hb
    obtain ⟨r, hr⟩ := (hbo.ok b hb).headMem
    obtain ⟨it, hit, hpe⟩ := hred b hb _ hr
    obtain ⟨m, _, hm⟩ := inv.flag rfl it hit
    have hbit : it.flag.testBit m = true := by
      rw [hm, Nat.one_shiftLeft, Nat.testBit_two_pow]; simp
    have hexp := (inv.exp m).2 ⟨it, hit, hbit⟩
    rw [← he] at hexp
    obtain ⟨b', hb', hne, hfl⟩ := hcs m hexp
    obtain ⟨it', hit', hpp, hbit'⟩ := reduceBlocks_flag _ b' hb' m hfl
    have hsame : it' = it := by
      obtain ⟨m', _, hm'⟩ := inv.flag rfl it' hit'
      apply eq_of_flag_eq _ (inv.flagNe rfl) _ _ hit' hit
      rw [hm', Nat.one_shiftLeft, Nat.testBit_two_pow] at hbit'
      have : m' = m := by simpa using hbit'
      rw [hm, hm', this]
    subst hsame
    have h1 : s it'.pair.1 ≠ none := fun hc => hne ((hs b' hb' _ hpp).1 hc)
    rw [hpe] at h1
    exact h1

theorem aggregate_iff (condSem : String → R → Except E Bool) (rs : List (Red R V E))
    (hf : Faithful rs) (hi : ∀ r ∈ rs, Inits r) (hk : ∀ r ∈ rs, Keeps r) (rows : List R)
    (hll : LastLatest condSem (reduceBlocks (compile true rs).items) rows)
    (out : List (Option V)) :
    aggregate condSem rs rows = .ok out ↔ allAlone condSem rows rs = .ok out := by
  have hb := compile_aggOk rs hi hk
  have h0 : AInv condSem (reduceBlocks (compile true rs).items) [] (fresh : Slots V) :=
    ⟨fun p _ => alone_nil condSem p.2, fun b _ p _ => by simp [fresh]⟩
  have forward : ∀ out, aggregate condSem rs rows = .ok out →
      allAlone condSem rows rs = .ok out := by
    intro out h
    unfold aggregate at h
    simp only at h
    split at h
    · simp at h
    · next st rest h1 =>
      obtain ⟨mid, e, hinv, hrest⟩ := aggLoop1_sound condSem _ _ hb rows [] _ st rest
        (by simpa using hll) h0 (by simp) h1
      simp only [List.nil_append] at hinv
      split at h
      · simp at h
      · next s h2 =>
        simp only [Except.ok.injEq] at h
        subst h
        have hfin : AInv condSem (reduceBlocks (compile true rs).items) rows s := by
          rcases hrest with hn | hne
          · subst hn
            simp only [aggLoop2, Except.ok.injEq] at h2
            subst h2
            rw [e, List.append_nil]; exact hinv
          · rw [e]
            exact aggLoop2_sound condSem _ hb.toBlocksOk hb.keepsAll rest mid st.slots s hinv hne h2
        exact read_slots true condSem rs hf rows s hfin.vals
  constructor
  · exact forward out
  · intro h
    have hall := parts_ok true condSem rs rows out h
    obtain ⟨st, rest, h1⟩ := aggLoop1_complete condSem (compile true rs).expected _ hb.toBlocksOk
      rows [] { slots := fresh, checksum := 0 } h0 (by simpa using hall)
    obtain ⟨mid, e, hinv, hrest⟩ := aggLoop1_sound condSem _ _ hb rows [] _ st rest
      (by simpa using hll) h0 (by simp) h1
    simp only [List.nil_append] at hinv
    have h2 : ∃ s, aggLoop2 condSem (reduceBlocks (compile true rs).items) rest st.slots = .ok s := by
      rcases hrest with hn | hne
      · subst hn; exact ⟨_, rfl⟩
      · exact aggLoop2_complete condSem _ hb.toBlocksOk hb.keepsAll rest mid st.slots hinv hne
          (by rw [← e]; exact hall)
    obtain ⟨s, h2⟩ := h2
    have hr : aggregate condSem rs rows = .ok ((compile true rs).slotOf.map s) := by
      simp only [aggregate, h1, h2]
    have := forward _ hr
    rw [h] at this
    simp only [Except.ok.injEq] at this
    rw [hr, this]

end Verif.Agg
