import Verif.Agg.Spec

/-! # Lemmas for the aggregation model -/
set_option autoImplicit false

namespace Verif.Agg

open Verif

variable {R V E K : Type}

/-! ## One reduce -/

/-- One row seen by one reduce. -/
def stepRed (condSem : String → R → Except E Bool) (r : Red R V E) (row : R) (v : Option V) :
    Except E (Option V) :=
  match condHolds condSem row r.cond with
  | .error e => .error e
  | .ok false => .ok v
  | .ok true =>
    match v with
    | none => r.init row none
    | some x => r.two row (some x)

theorem foldRows_snoc (r : Red R V E) (rows : List R) (row : R) (v v' : Option V) :
    foldRows r v (rows ++ [row]) = .ok v' ↔
      ∃ w, foldRows r v rows = .ok w ∧
        (match w with | none => r.init row none | some x => r.two row (some x)) = .ok v' := by
  induction rows generalizing v with
  | nil =>
    cases v with
    | none =>
      simp only [List.nil_append, foldRows]
      cases h : r.init row none with
      | error e => simp [h]
      | ok a => simp [h]
    | some x =>
      simp only [List.nil_append, foldRows]
      cases h : r.two row (some x) with
      | error e => simp [h]
      | ok a => simp [h]
  | cons a rows ih =>
    cases v with
    | none =>
      simp only [List.cons_append, foldRows]
      cases h : r.init a none with
      | error e => simp
      | ok b => simp [ih]
    | some x =>
      simp only [List.cons_append, foldRows]
      cases h : r.two a (some x) with
      | error e => simp
      | ok b => simp [ih]

theorem passing_snoc (condSem : String → R → Except E Bool) (c : Option String) (rows : List R)
    (row : R) (ks : List R) :
    passing condSem c (rows ++ [row]) = .ok ks ↔
      ∃ ks' b, passing condSem c rows = .ok ks' ∧ condHolds condSem row c = .ok b ∧
        ks = (if b then ks' ++ [row] else ks') := by
  induction rows generalizing ks with
  | nil =>
    simp only [List.nil_append, passing]
    cases h : condHolds condSem row c with
    | error e => simp
    | ok b => cases b <;> simp [eq_comm]
  | cons a rows ih =>
    simp only [List.cons_append, passing]
    cases h : condHolds condSem a c with
    | error e => simp
    | ok b =>
      cases hp : passing condSem c (rows ++ [row]) with
      | error e =>
        have hno : ¬ ∃ ks, passing condSem c (rows ++ [row]) = .ok ks := by simp [hp]
        have : ∀ ks' b', passing condSem c rows = .ok ks' →
            condHolds condSem row c = .ok b' → False := by
          intro ks' b' h1 h2
          exact hno ⟨_, (ih _).2 ⟨ks', b', h1, h2, rfl⟩⟩
        constructor
        · intro h; cases b <;> simp at h
        · rintro ⟨ks', b', h1, h2, _⟩
          cases hp2 : passing condSem c rows with
          | error e => rw [hp2] at h1; cases b <;> simp at h1
          | ok k2 => exact (this _ _ hp2 h2).elim
      | ok k1 =>
        obtain ⟨k2, b', h1, h2, h3⟩ := (ih _).1 hp
        subst h3
        simp only [h1, h2]
        cases b <;> cases b' <;> simp [eq_comm]

theorem alone_nil (condSem : String → R → Except E Bool) (r : Red R V E) :
    alone condSem r [] = .ok none := by
  simp [alone, passing, foldRows]

theorem alone_snoc (condSem : String → R → Except E Bool) (r : Red R V E) (rows : List R) (row : R)
    (v' : Option V) :
    alone condSem r (rows ++ [row]) = .ok v' ↔
      ∃ v, alone condSem r rows = .ok v ∧ stepRed condSem r row v = .ok v' := by
  have key : alone condSem r (rows ++ [row]) = .ok v' ↔
      ∃ ks, passing condSem r.cond (rows ++ [row]) = .ok ks ∧ foldRows r none ks = .ok v' := by
    unfold alone
    cases passing condSem r.cond (rows ++ [row]) <;> simp
  have key2 : ∀ v, alone condSem r rows = .ok v ↔
      ∃ ks, passing condSem r.cond rows = .ok ks ∧ foldRows r none ks = .ok v := by
    intro v
    unfold alone
    cases passing condSem r.cond rows <;> simp
  rw [key]
  constructor
  · rintro ⟨ks, h1, h2⟩
    obtain ⟨ks', b, h3, h4, rfl⟩ := (passing_snoc ..).1 h1
    cases b with
    | false => exact ⟨v', (key2 _).2 ⟨ks', h3, by simpa using h2⟩, by simp [stepRed, h4]⟩
    | true =>
      obtain ⟨w, h5, h6⟩ := (foldRows_snoc ..).1 (by simpa using h2)
      exact ⟨w, (key2 _).2 ⟨ks', h3, h5⟩, by simp only [stepRed, h4]; exact h6⟩
  · rintro ⟨v, h1, h2⟩
    obtain ⟨ks', h3, h4⟩ := (key2 _).1 h1
    cases h5 : condHolds condSem row r.cond with
    | error e => simp [stepRed, h5] at h2
    | ok b =>
      refine ⟨_, (passing_snoc ..).2 ⟨ks', b, h3, h5, rfl⟩, ?_⟩
      cases b with
      | false => simp [stepRed, h5] at h2; subst h2; simpa using h4
      | true =>
        simp only [stepRed, h5] at h2
        simp only [if_true]
        exact (foldRows_snoc ..).2 ⟨v, h4, h2⟩

/-! ## Parts and blocks -/

theorem runParts_iff (ph : Phase) (row : R) (ps : List (Nat × Red R V E)) (s s' : Slots V)
    (hnd : (ps.map Prod.fst).Nodup) :
    runParts ph row ps s = .ok s' ↔
      (∀ p ∈ ps, p.2.code ph row (s p.1) = .ok (s' p.1)) ∧
        ∀ j, j ∉ ps.map Prod.fst → s' j = s j := by
  induction ps generalizing s with
  | nil =>
    simp only [runParts, List.not_mem_nil, false_implies, implies_true, List.map_nil,
      not_false_eq_true, true_and, Except.ok.injEq, forall_const]
    exact ⟨fun h j => by rw [h], fun h => (funext h).symm⟩
  | cons p ps ih =>
    obtain ⟨i, r⟩ := p
    simp only [List.map_cons, List.nodup_cons] at hnd
    simp only [runParts]
    cases h : r.code ph row (s i) with
    | error e => simp [h]
    | ok v =>
      simp only [ih _ hnd.2]
      constructor
      · rintro ⟨h1, h2⟩
        have hi : s' i = v := by rw [h2 i hnd.1]; simp [upd]
        constructor
        · intro p hp
          rcases List.mem_cons.1 hp with rfl | hp
          · simpa [hi] using h
          · have hne : p.1 ≠ i := fun e => hnd.1 (e ▸ List.mem_map_of_mem hp)
            have := h1 p hp
            simpa [upd, hne] using this
        · intro j hj
          simp only [List.map_cons, List.mem_cons, not_or] at hj
          rw [h2 j hj.2]; simp [upd, hj.1]
      · rintro ⟨h1, h2⟩
        have hi : s' i = v := by
          have := h1 (i, r) (by simp)
          simpa [h, eq_comm] using this
        constructor
        · intro p hp
          have hne : p.1 ≠ i := fun e => hnd.1 (e ▸ List.mem_map_of_mem hp)
          simpa [upd, hne] using h1 p (by simp [hp])
        · intro j hj
          by_cases hji : j = i
          · subst hji; simp [upd, hi]
          · simp [upd, hji]; exact h2 j (by simp [hji, hj])

/-- Shape of the blocks made by `reduceBlocks`. -/
structure BlockOk (b : Block R V E) : Prop where
  headMem : ∃ r, (b.head, r) ∈ b.parts
  conds : ∀ p ∈ b.parts, p.2.cond = b.cond
  merged : (∃ p, b.parts = [p]) ∨ ∀ p ∈ b.parts, p.2.uncond = true
  nodup : (b.parts.map Prod.fst).Nodup

/-- Slots of one block are all set or all unset. -/
def Sync (b : Block R V E) (s : Slots V) : Prop :=
  ∀ p ∈ b.parts, (s p.1 = none ↔ s b.head = none)

theorem runBlock_iff (condSem : String → R → Except E Bool) (row : R) (b : Block R V E)
    (s s' : Slots V) (hb : BlockOk b) (hs : Sync b s) :
    runBlock condSem row b s = .ok s' ↔
      (∀ p ∈ b.parts, stepRed condSem p.2 row (s p.1) = .ok (s' p.1)) ∧
        ∀ j, j ∉ b.parts.map Prod.fst → s' j = s j := by
  obtain ⟨r0, hr0⟩ := hb.headMem
  unfold runBlock
  cases hc : condHolds condSem row b.cond with
  | error e =>
    simp only [reduceCtorEq, false_iff, not_and]
    intro h
    have := h _ hr0
    have hcc : r0.cond = b.cond := hb.conds _ hr0
    simp [stepRed, hcc, hc] at this
  | ok c =>
    cases c with
    | false =>
      have hstep : ∀ p ∈ b.parts, stepRed condSem p.2 row (s p.1) = .ok (s p.1) := by
        intro p hp; simp [stepRed, hb.conds _ hp, hc]
      simp only [Except.ok.injEq]
      constructor
      · rintro rfl; exact ⟨hstep, fun _ _ => rfl⟩
      · rintro ⟨h1, h2⟩
        funext j
        by_cases hj : j ∈ b.parts.map Prod.fst
        · obtain ⟨p, hp, rfl⟩ := List.mem_map.1 hj
          have := (hstep p hp).symm.trans (h1 p hp)
          simpa using this
        · exact (h2 j hj).symm
    | true =>
      cases hh : s b.head with
      | none =>
        simp only [runParts_iff _ _ _ _ _ hb.nodup]
        have : ∀ p ∈ b.parts, stepRed condSem p.2 row (s p.1) = p.2.code .init row (s p.1) := by
          intro p hp
          have := (hs p hp).2 hh
          simp [stepRed, hb.conds _ hp, hc, this, Red.code]
        constructor
        · rintro ⟨h1, h2⟩; exact ⟨fun p hp => (this p hp).trans (h1 p hp), h2⟩
        · rintro ⟨h1, h2⟩; exact ⟨fun p hp => (this p hp).symm.trans (h1 p hp), h2⟩
      | some x =>
        simp only [runParts_iff _ _ _ _ _ hb.nodup]
        have : ∀ p ∈ b.parts, stepRed condSem p.2 row (s p.1) = p.2.code .two row (s p.1) := by
          intro p hp
          have hne : s p.1 ≠ none := fun h => by
            have := (hs p hp).1 h
            rw [hh] at this; simp at this
          obtain ⟨y, hy⟩ := Option.ne_none_iff_exists'.1 hne
          simp [stepRed, hb.conds _ hp, hc, hy, Red.code]
        constructor
        · rintro ⟨h1, h2⟩; exact ⟨fun p hp => (this p hp).trans (h1 p hp), h2⟩
        · rintro ⟨h1, h2⟩; exact ⟨fun p hp => (this p hp).symm.trans (h1 p hp), h2⟩

/-- A step of a reduce that initialises unconditionally and keeps its value: the slot is set after
a row that passes the filter. -/
theorem step_sync (condSem : String → R → Except E Bool) (row : R) (b : Block R V E)
    (s s' : Slots V) (hb : BlockOk b) (hs : Sync b s)
    (hi : ∀ p ∈ b.parts, Inits p.2) (hk : ∀ p ∈ b.parts, p.2.uncond = true → Keeps p.2)
    (h : ∀ p ∈ b.parts, stepRed condSem p.2 row (s p.1) = .ok (s' p.1)) : Sync b s' := by
  obtain ⟨r0, hr0⟩ := hb.headMem
  rcases hb.merged with ⟨p, hp⟩ | hu
  · intro q hq
    rw [hp] at hq hr0
    simp only [List.mem_singleton] at hq hr0
    subst hq; rw [← hr0]
  · have step : ∀ p ∈ b.parts, (s' p.1 = none ↔
        s p.1 = none ∧ condHolds condSem row b.cond = .ok false) := by
      intro p hp
      have h1 := h p hp
      unfold stepRed at h1
      rw [hb.conds p hp] at h1
      cases hc : condHolds condSem row b.cond with
      | error e => simp [hc] at h1
      | ok c =>
        cases c with
        | false => simp [hc] at h1; simp [h1]
        | true =>
          simp only [hc] at h1
          cases hsp : s p.1 with
          | none =>
            rw [hsp] at h1
            simp [hi p hp (hu p hp) _ _ h1]
          | some x =>
            rw [hsp] at h1
            simp [hk p hp (hu p hp) _ _ _ h1]
    intro p hp
    rw [step p hp, step _ hr0, hs p hp]

/-- All `(slot, reduce)` pairs of the blocks. -/
def allParts (bs : List (Block R V E)) : List (Nat × Red R V E) := bs.flatMap Block.parts

theorem runBlocks_iff (condSem : String → R → Except E Bool) (row : R) (bs : List (Block R V E))
    (s s' : Slots V) (hb : ∀ b ∈ bs, BlockOk b) (hnd : ((allParts bs).map Prod.fst).Nodup)
    (hs : ∀ b ∈ bs, Sync b s) :
    runBlocks condSem row bs s = .ok s' ↔
      (∀ p ∈ allParts bs, stepRed condSem p.2 row (s p.1) = .ok (s' p.1)) ∧
        ∀ j, j ∉ (allParts bs).map Prod.fst → s' j = s j := by
  induction bs generalizing s with
  | nil =>
    simp only [runBlocks, allParts, List.flatMap_nil, List.not_mem_nil, false_implies,
      implies_true, List.map_nil, not_false_eq_true, true_and, Except.ok.injEq, forall_const]
    exact ⟨fun h j => by rw [h], fun h => (funext h).symm⟩
  | cons b bs ih =>
    have hall : allParts (b :: bs) = b.parts ++ allParts bs := by simp [allParts]
    rw [hall, List.map_append, List.nodup_append] at hnd
    obtain ⟨hn1, hn2, hdis⟩ := hnd
    have hb0 := hb b (by simp)
    have hs0 := hs b (by simp)
    have hmem : ∀ b' ∈ bs, ∀ p ∈ b'.parts, p ∈ allParts bs := by
      intro b' hb' p hp; exact List.mem_flatMap.2 ⟨b', hb', hp⟩
    have hhead : ∀ b' ∈ bs, b'.head ∈ (allParts bs).map Prod.fst := by
      intro b' hb'
      obtain ⟨r, hr⟩ := (hb b' (by simp [hb'])).headMem
      exact List.mem_map.2 ⟨_, hmem b' hb' _ hr, rfl⟩
    simp only [runBlocks]
    rw [hall]
    cases hr : runBlock condSem row b s with
    | error e =>
      simp only [reduceCtorEq, false_iff, not_and]
      intro h1 _
      -- the parts of `b` would all succeed
      let s2 : Slots V := fun j => if j ∈ b.parts.map Prod.fst then s' j else s j
      have : runBlock condSem row b s = .ok s2 := by
        rw [runBlock_iff condSem row b s s2 hb0 hs0]
        constructor
        · intro p hp
          have hin : p.1 ∈ b.parts.map Prod.fst := List.mem_map_of_mem hp
          have h2 := h1 p (by simp [hp])
          have e : s2 p.1 = s' p.1 := if_pos hin
          rw [e]; exact h2
        · intro j hj; exact if_neg hj
      rw [hr] at this; simp at this
    | ok s1 =>
      have hr' := (runBlock_iff condSem row b s s1 hb0 hs0).1 hr
      have hs1 : ∀ j ∈ (allParts bs).map Prod.fst, s1 j = s j := by
        intro j hj
        exact hr'.2 j (fun hc => hdis _ hc _ hj rfl)
      have hsync : ∀ b' ∈ bs, Sync b' s1 := by
        intro b' hb' p hp
        rw [hs1 _ (List.mem_map_of_mem (hmem b' hb' p hp)), hs1 _ (hhead b' hb')]
        exact hs b' (by simp [hb']) p hp
      simp only [ih s1 (fun b' hb' => hb b' (by simp [hb'])) hn2 hsync]
      constructor
      · rintro ⟨h1, h2⟩
        have hs'1 : ∀ p ∈ b.parts, s' p.1 = s1 p.1 := by
          intro p hp
          exact h2 _ (fun hc => hdis _ (List.mem_map_of_mem hp) _ hc rfl)
        constructor
        · intro p hp
          rcases List.mem_append.1 hp with hp | hp
          · rw [hs'1 p hp]; exact hr'.1 p hp
          · have := h1 p hp
            rwa [hs1 _ (List.mem_map_of_mem hp)] at this
        · intro j hj
          rw [List.map_append, List.mem_append, not_or] at hj
          rw [h2 j hj.2, hr'.2 j hj.1]
      · rintro ⟨h1, h2⟩
        constructor
        · intro p hp
          rw [hs1 _ (List.mem_map_of_mem hp)]
          exact h1 p (by simp [hp])
        · intro j hj
          by_cases hjb : j ∈ b.parts.map Prod.fst
          · obtain ⟨p, hp, rfl⟩ := List.mem_map.1 hjb
            have e1 := h1 p (by simp [hp])
            have e2 := hr'.1 p hp
            rw [e1] at e2
            simpa using e2
          · rw [h2 j (by simp only [List.map_append, List.mem_append, not_or]; exact ⟨hjb, hj⟩), hr'.2 j hjb]

/-! ## The blocks made from the items -/

theorem bucket_snoc {A : Type} (key : A → Option String) (xs : List A) (x : A) :
    bucket key (xs ++ [x]) =
      Dict.set (bucket key xs) (key x) (((Dict.get? (bucket key xs) (key x)).getD []) ++ [x]) := by
  simp [bucket, List.foldl_append]

theorem flatMap_set_perm {A : Type} (d : List (Option String × List A)) (k : Option String) (x : A) :
    ((Dict.set d k (((Dict.get? d k).getD []) ++ [x])).flatMap Prod.snd).Perm
      (d.flatMap Prod.snd ++ [x]) := by
  induction d with
  | nil => simp [Dict.set, Dict.get?]
  | cons p d ih =>
    obtain ⟨a, l⟩ := p
    by_cases h : a == k
    · simp only [Dict.set, Dict.get?, h, if_true, Option.getD_some, List.flatMap_cons]
      rw [List.append_assoc, List.append_assoc]
      exact List.Perm.append_left l List.perm_append_comm
    · simp only [Dict.set, Dict.get?, h, Bool.false_eq_true, if_false, List.flatMap_cons]
      rw [List.append_assoc]
      exact ih.append_left l

theorem bucket_perm {A : Type} (key : A → Option String) (xs : List A) :
    ((bucket key xs).flatMap Prod.snd).Perm xs := by
  suffices h : ∀ ys : List A, ((bucket key ys.reverse).flatMap Prod.snd).Perm ys.reverse by
    simpa using h xs.reverse
  intro ys
  induction ys with
  | nil => simp [bucket]
  | cons y ys ih =>
    rw [List.reverse_cons, bucket_snoc]
    exact (flatMap_set_perm _ _ _).trans (ih.append_right _)

theorem set_mem {A : Type} (d : List (Option String × List A)) (k : Option String) (l : List A)
    (p : Option String × List A) (h : p ∈ Dict.set d k l) : p ∈ d ∨ p = (k, l) := by
  induction d with
  | nil => simp [Dict.set] at h; simp [h]
  | cons q d ih =>
    obtain ⟨a, l'⟩ := q
    by_cases hk : a == k
    · have := eq_of_beq hk; subst this
      simp only [Dict.set, beq_self_eq_true, if_true, List.mem_cons] at h
      rcases h with h | h
      · exact Or.inr h
      · exact Or.inl (by simp [h])
    · simp only [Dict.set, hk, Bool.false_eq_true, if_false, List.mem_cons] at h
      rcases h with h | h
      · exact Or.inl (by simp [h])
      · rcases ih h with h | h
        · exact Or.inl (by simp [h])
        · exact Or.inr h

theorem get?_mem {A : Type} (d : List (Option String × List A)) (k : Option String) (l : List A)
    (h : Dict.get? d k = some l) : (k, l) ∈ d := by
  induction d with
  | nil => simp [Dict.get?] at h
  | cons q d ih =>
    obtain ⟨a, l'⟩ := q
    by_cases hk : a == k
    · have := eq_of_beq hk; subst this
      simp [Dict.get?] at h; simp [h]
    · simp [Dict.get?, hk] at h
      simp [ih h]

theorem bucket_keys {A : Type} (key : A → Option String) (xs : List A) :
    ∀ p ∈ bucket key xs, p.2 ≠ [] ∧ ∀ x ∈ p.2, key x = p.1 := by
  suffices h : ∀ ys : List A, ∀ p ∈ bucket key ys.reverse, p.2 ≠ [] ∧ ∀ x ∈ p.2, key x = p.1 by
    simpa using h xs.reverse
  intro ys
  induction ys with
  | nil => simp [bucket]
  | cons y ys ih =>
    intro p hp
    rw [List.reverse_cons, bucket_snoc] at hp
    rcases set_mem _ _ _ _ hp with hp | rfl
    · exact ih p hp
    · refine ⟨by simp, ?_⟩
      intro x hx
      simp only [List.mem_append, List.mem_singleton] at hx
      rcases hx with hx | rfl
      · cases hg : Dict.get? (bucket key ys.reverse) (key y) with
        | none => simp [hg] at hx
        | some l =>
          simp [hg] at hx
          exact (ih _ (get?_mem _ _ _ hg)).2 x hx
      · rfl

theorem foldl_union (bs : List (Block R V E)) (b : Block R V E) :
    (bs.foldl Block.union b).head = b.head ∧ (bs.foldl Block.union b).cond = b.cond ∧
      (bs.foldl Block.union b).parts = b.parts ++ bs.flatMap Block.parts ∧
      (bs.foldl Block.union b).flag = bs.foldl (fun f c => f ||| c.flag) b.flag := by
  induction bs generalizing b with
  | nil => simp
  | cons c bs ih =>
    obtain ⟨h1, h2, h3, h4⟩ := ih (b.union c)
    refine ⟨h1, h2, ?_, h4⟩
    rw [List.foldl_cons, h3]
    simp [Block.union]

/-- The pair contributed by an item. -/
def Item.pair (it : Item R V E) : Nat × Red R V E := (it.slot, it.red)

theorem flatMap_block_parts (its : List (Item R V E)) :
    (its.map Item.block).flatMap Block.parts = its.map Item.pair := by
  induction its with
  | nil => rfl
  | cons it its ih =>
    simp only [List.map_cons, List.flatMap_cons, ih]
    simp [Item.block, Item.pair]

theorem mergeAll_parts (its : List (Item R V E)) :
    ((mergeAll (its.map Item.block)).toList).flatMap Block.parts = its.map Item.pair := by
  cases its with
  | nil => simp [mergeAll]
  | cons it its =>
    simp only [List.map_cons, mergeAll, Option.toList_some, List.flatMap_cons, List.flatMap_nil,
      List.append_nil]
    rw [(foldl_union _ _).2.2.1, flatMap_block_parts]
    simp [Item.block, Item.pair]

theorem four_way_perm {A : Type} (p q : A → Bool) (xs : List A) :
    (xs.filter (fun x => p x && !q x) ++ xs.filter (fun x => p x && q x)
      ++ xs.filter (fun x => !p x && q x) ++ xs.filter (fun x => !p x && !q x)).Perm xs := by
  induction xs with
  | nil => simp
  | cons x xs ih =>
    cases hp : p x <;> cases hq : q x <;>
      simp only [List.filter_cons, hp, hq, Bool.and_true, Bool.and_false, Bool.not_true,
        Bool.not_false, Bool.true_and, Bool.false_and, if_true, Bool.false_eq_true, if_false]
    · exact List.perm_middle.trans (ih.cons x)
    · refine List.Perm.trans ?_ (ih.cons x)
      rw [List.append_assoc, List.append_assoc]
      refine List.Perm.trans ?_ (List.Perm.refl _)
      rw [List.append_assoc (xs.filter _)]
      exact (List.Perm.append_left _ List.perm_middle).trans List.perm_middle |>.trans
        (by simp)
    · refine List.Perm.trans ?_ (ih.cons x)
      simp only [List.append_assoc, List.cons_append]
      exact List.Perm.refl _
    · refine List.Perm.trans ?_ (ih.cons x)
      simp only [List.append_assoc, List.cons_append]
      exact List.perm_middle

theorem flatMap_filterMap_parts (ds : List (Option String × List (Item R V E))) :
    (ds.filterMap (fun p => mergeAll (p.2.map Item.block))).flatMap Block.parts =
      (ds.flatMap Prod.snd).map Item.pair := by
  induction ds with
  | nil => rfl
  | cons d ds ih =>
    have := mergeAll_parts d.2
    simp only [List.flatMap_cons, List.map_append]
    cases h : mergeAll (d.2.map Item.block) with
    | none =>
      simp only [List.filterMap_cons, h, ih, ← this]; simp
    | some b =>
      simp only [List.filterMap_cons, h, ih, ← this, List.flatMap_cons]; simp

theorem flatMap_flatMap_parts (ds : List (Option String × List (Item R V E))) :
    (ds.flatMap (fun p => p.2.map Item.block)).flatMap Block.parts =
      (ds.flatMap Prod.snd).map Item.pair := by
  induction ds with
  | nil => rfl
  | cons d ds ih =>
    simp only [List.flatMap_cons, List.flatMap_append, List.map_append, ih, flatMap_block_parts]

theorem allParts_perm (items : List (Item R V E)) :
    (allParts (reduceBlocks items)).Perm (items.map Item.pair) := by
  unfold allParts reduceBlocks
  simp only [List.flatMap_append, flatMap_flatMap_parts, flatMap_filterMap_parts, mergeAll_parts,
    flatMap_block_parts]
  rw [← List.map_append, ← List.map_append, ← List.map_append]
  apply List.Perm.map
  refine List.Perm.trans ?_ (four_way_perm (fun it => it.red.cond.isSome) (fun it => it.red.uncond) items)
  exact (((bucket_perm _ _).append (bucket_perm _ _)).append_right _).append_right _

theorem item_block_ok (it : Item R V E) : BlockOk it.block :=
  ⟨⟨it.red, by simp [Item.block]⟩, by simp [Item.block], Or.inl ⟨_, rfl⟩, by simp [Item.block]⟩

theorem merged_ok (its : List (Item R V E)) (b : Block R V E)
    (h : mergeAll (its.map Item.block) = some b) (c : Option String)
    (hc : ∀ it ∈ its, it.red.cond = c) (hu : ∀ it ∈ its, it.red.uncond = true)
    (hnd : (its.map Item.slot).Nodup) : BlockOk b := by
  cases its with
  | nil => simp [mergeAll] at h
  | cons it its =>
    have hp := mergeAll_parts (it :: its)
    rw [h] at hp
    simp only [Option.toList_some, List.flatMap_cons, List.flatMap_nil, List.append_nil] at hp
    simp only [List.map_cons, mergeAll, Option.some.injEq] at h
    obtain ⟨h1, h2, _, _⟩ := foldl_union (its.map Item.block) it.block
    rw [h] at h1 h2
    refine ⟨⟨it.red, ?_⟩, ?_, Or.inr ?_, ?_⟩
    · rw [hp, h1]; simp [Item.pair, Item.block]
    · intro p hp'
      rw [hp] at hp'
      obtain ⟨i, hi, rfl⟩ := List.mem_map.1 hp'
      rw [h2]
      exact (hc i hi).trans (hc it (by simp)).symm
    · intro p hp'
      rw [hp] at hp'
      obtain ⟨i, hi, rfl⟩ := List.mem_map.1 hp'
      exact hu i hi
    · rw [hp, List.map_map]
      exact hnd

theorem sublist_flatMap_of_mem {A : Type} (d : List (Option String × List A))
    (p : Option String × List A) (h : p ∈ d) : p.2.Sublist (d.flatMap Prod.snd) := by
  induction d with
  | nil => simp at h
  | cons q d ih =>
    rw [List.flatMap_cons]
    rcases List.mem_cons.1 h with rfl | h
    · exact List.sublist_append_left _ _
    · exact (ih h).trans (List.sublist_append_right _ _)

theorem reduceBlocks_ok (items : List (Item R V E)) (hnd : (items.map Item.slot).Nodup) :
    ∀ b ∈ reduceBlocks items, BlockOk b := by
  intro b hb
  unfold reduceBlocks at hb
  simp only [List.mem_append, List.mem_flatMap, List.mem_filterMap, Option.mem_toList,
    Option.mem_def, List.mem_map] at hb
  rcases hb with ((⟨p, _, it, _, rfl⟩ | ⟨p, hp, hm⟩) | hm) | ⟨it, _, rfl⟩
  · exact item_block_ok it
  · have hk := bucket_keys _ _ p hp
    have hsub : ∀ it ∈ p.2, it ∈ items.filter (fun it => it.red.cond.isSome && it.red.uncond) := by
      intro it hit
      exact (bucket_perm _ _).mem_iff.1 (List.mem_flatMap.2 ⟨p, hp, hit⟩)
    refine merged_ok p.2 b hm p.1 hk.2 ?_ ?_
    · intro it hit
      have := hsub it hit
      simp only [List.mem_filter, Bool.and_eq_true] at this
      exact this.2.2
    · have h1 : ((bucket (fun it : Item R V E => it.red.cond)
          (items.filter (fun it => it.red.cond.isSome && it.red.uncond))).flatMap Prod.snd
            |>.map Item.slot).Nodup := by
        rw [((bucket_perm _ _).map Item.slot).nodup_iff]
        exact hnd.sublist (List.filter_sublist.map _)
      refine h1.sublist (List.Sublist.map _ ?_)
      exact sublist_flatMap_of_mem _ _ hp
  · refine merged_ok _ b hm none ?_ ?_ (hnd.sublist (List.filter_sublist.map _))
    · intro it hit
      simp only [List.mem_filter, Bool.and_eq_true, Bool.not_eq_true', Option.isSome_eq_false_iff,
        Option.isNone_iff_eq_none] at hit
      exact hit.2.1
    · intro it hit
      simp only [List.mem_filter, Bool.and_eq_true] at hit
      exact hit.2.2
  · exact item_block_ok it

end Verif.Agg
