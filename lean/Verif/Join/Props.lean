import Verif.Join.Run

/-!
# C43-C47: joins
-/

set_option autoImplicit false

namespace Verif.Join

open Verif

variable {A V E : Type}

/-! ## C43: the condition and its parts -/

theorem keys_iff [BEq V] [EquivBEq V] (truthy : V → Bool) (l r : A)
    (hs : List (Term A V E × Term A V E)) (h : ∀ x ∈ hs, ∃ f g, x = (.left f, .right g)) :
    (∃ k k', keyOf (hs.map Prod.fst) l = .ok k ∧ keyOf (hs.map Prod.snd) r = .ok k' ∧
      (k == k') = true) ↔ ∀ x ∈ hs, (pairAtom x).holds truthy l r = .ok true := by
  induction hs with
  | nil => simp [keyOf]
  | cons x hs ih =>
    obtain ⟨f, g, rfl⟩ := h x (by simp)
    have ih' := ih (fun x hx => h x (by simp [hx]))
    rw [List.forall_mem_cons, ← ih']
    simp only [List.map_cons, keyOf, Term.eval, pairAtom, Atom.holds, List.map_nil]
    cases f l with
    | error e => simp
    | ok v =>
      cases g r with
      | error e => simp [chainEq]
      | ok w =>
        simp only [chainEq]
        cases keyOf (hs.map Prod.fst) l with
        | error e => simp
        | ok k =>
          cases keyOf (hs.map Prod.snd) r with
          | error e => simp
          | ok k' => by_cases hvw : (v == w) = true <;> simp [hvw]

/-- C43: a pair satisfies the condition iff it satisfies every part the condition is split into: the
conditions evaluated once per call, the filters of each side alone, the equality of hash keys and
the conditions of the inner loop. -/
theorem C43_split_preserves [BEq V] [EquivBEq V] (truthy : V → Bool) (how : How)
    (c : Option (Cond A V E)) (l r x : A) :
    satOpt truthy l r c = .ok true ↔
      (let p := fromCondition how c
      allHold truthy x x p.pre = .ok true ∧
      allHold truthy l l p.leftColl = .ok true ∧
      allHold truthy r r p.rightColl = .ok true ∧
      (∃ k k', keyOf (p.hashers.map Prod.fst) l = .ok k ∧ keyOf (p.hashers.map Prod.snd) r = .ok k' ∧
        (k == k') = true) ∧
      allHold truthy l r (p.leftRow ++ p.rightRow ++ p.inner) = .ok true) := by
  have hp := parts_placed how c
  have hall : satOpt truthy l r c = .ok true ↔
      ∀ a ∈ (fromCondition how c).all, a.holds truthy l r = .ok true := by
    rw [satOpt_true]
    simp only [parts_all, List.mem_map, forall_exists_index, and_imp, forall_apply_eq_imp_iff₂,
      normAtom_holds]
  rw [hall]
  simp only
  rw [keys_iff truthy l r _ hp.hashers]
  simp only [allHold_true]
  have e1 : (∀ a ∈ (fromCondition how c).pre, a.holds truthy x x = .ok true) ↔
      ∀ a ∈ (fromCondition how c).pre, a.holds truthy l r = .ok true := by
    refine forall₂_congr (fun a ha => ?_)
    rw [Atom.holds_congr]
    exact const_eval a (hp.pre a ha) _ _ _ _
  have e2 : (∀ a ∈ (fromCondition how c).leftColl, a.holds truthy l l = .ok true) ↔
      ∀ a ∈ (fromCondition how c).leftColl, a.holds truthy l r = .ok true := by
    refine forall₂_congr (fun a ha => ?_)
    rw [Atom.holds_congr]
    exact fun t ht => Term.eval_left t (hp.leftColl a ha t ht) _ _ _
  have e3 : (∀ a ∈ (fromCondition how c).rightColl, a.holds truthy r r = .ok true) ↔
      ∀ a ∈ (fromCondition how c).rightColl, a.holds truthy l r = .ok true := by
    refine forall₂_congr (fun a ha => ?_)
    rw [Atom.holds_congr]
    exact fun t ht => Term.eval_right t (hp.rightColl a ha t ht) _ _ _
  rw [e1, e2, e3]
  simp only [Parts.all, List.mem_append, List.mem_map]
  constructor
  · intro h
    refine ⟨fun a ha => h a ?_, fun a ha => h a ?_, fun a ha => h a ?_,
      fun y hy => h _ (.inr ⟨y, hy, rfl⟩), fun a ha => h a ?_⟩ <;> grind
  · rintro ⟨h1, h2, h3, h4, h5⟩ a ha
    rcases ha with ha | ⟨y, hy, rfl⟩
    · grind
    · exact h4 y hy

/-- Concretely: keys, a filter on either side and a condition on both rows are found. -/
example :
    let p := fromCondition (A := Nat) (V := Nat) (E := Unit) .inner
      (some (.and [.eq [.right .ok, .left .ok], .other (.left .ok),
        .and [.other (.right .ok), .other (.both fun a b => .ok (a + b))]]))
    (p.hashers.length, p.leftColl.length, p.rightColl.length, p.inner.length) = (1, 1, 1, 1) := rfl

/-! ## Loops -/

theorem innerPairs_eq (left right : List A) (lf rf : A → Bool) (q m : A → A → Bool)
    (h : ∀ l ∈ left, ∀ r ∈ right, m l r = (lf l && (rf r && q l r))) :
    innerPairs ((left.filter lf).map (fun l => (l, (right.filter rf).filter (q l)))) =
      innerSpec m left right := by
  induction left with
  | nil => rfl
  | cons l left ih =>
    have ih' := ih (fun l hl => h l (by simp [hl]))
    have h1 := h l (by simp)
    simp only [innerPairs, innerSpec, List.flatMap_cons] at ih' ⊢
    rw [← ih']
    by_cases hl : lf l = true
    · have : (right.filter rf).filter (q l) = right.filter (m l) := by
        rw [List.filter_filter]
        apply List.filter_congr
        intro r hr
        rw [h1 r hr, hl, Bool.true_and, Bool.and_comm]
      simp only [List.filter_cons, hl, if_true, List.map_cons, List.flatMap_cons, this]
    · have : right.filter (m l) = [] := by
        rw [List.filter_eq_nil_iff]
        intro r hr
        simp [h1 r hr, hl]
      simp [hl, this]

theorem leftPairs_eq (none_ : A) (left right : List A) (q m : A → A → Bool)
    (h : ∀ l ∈ left, ∀ r ∈ right, m l r = q l r) :
    leftPairs none_ false (left.map (fun l => (l, right.filter (q l)))) =
      leftSpec none_ m left right := by
  induction left with
  | nil => rfl
  | cons l left ih =>
    have ih' := ih (fun l hl => h l (by simp [hl]))
    simp only [leftPairs, leftSpec, List.map_cons, List.flatMap_cons] at ih' ⊢
    rw [ih']
    have : right.filter (q l) = right.filter (m l) :=
      List.filter_congr (fun r hr => (h l (by simp) r hr).symm)
    simp only [this]
    congr 1
    by_cases hany : right.any (m l) = true
    · rw [if_pos hany]
      split
      · rename_i hf
        rw [List.filter_eq_nil_iff] at hf
        obtain ⟨r, hr, hm⟩ := List.any_eq_true.1 hany
        exact absurd hm (hf r hr)
      · simp
    · rw [if_neg hany]
      have hf : right.filter (m l) = [] := by
        rw [List.filter_eq_nil_iff]
        intro r hr hm
        exact hany (List.any_eq_true.2 ⟨r, hr, hm⟩)
      simp [hf]

theorem swappedPairs_eq (none_ : A) (left right : List A) (q m : A → A → Bool)
    (h : ∀ l ∈ left, ∀ r ∈ right, m l r = q r l) :
    leftPairs none_ true (right.map (fun r => (r, left.filter (q r)))) =
      rightSpec none_ m left right := by
  induction right with
  | nil => rfl
  | cons r right ih =>
    have ih' := ih (fun l hl r hr => h l hl r (by simp [hr]))
    simp only [leftPairs, rightSpec, List.map_cons, List.flatMap_cons] at ih' ⊢
    rw [ih']
    have : left.filter (q r) = left.filter (fun l => m l r) :=
      List.filter_congr (fun l hl => (h l hl r (by simp)).symm)
    simp only [this]
    congr 1
    by_cases hany : left.any (fun l => m l r) = true
    · rw [if_pos hany]
      split
      · rename_i hf
        rw [List.filter_eq_nil_iff] at hf
        obtain ⟨l, hl, hm⟩ := List.any_eq_true.1 hany
        exact absurd hm (hf l hl)
      · simp
    · rw [if_neg hany]
      have hf : left.filter (fun l => m l r) = [] := by
        rw [List.filter_eq_nil_iff]
        intro l hl hm
        exact hany (List.any_eq_true.2 ⟨l, hl, hm⟩)
      simp [hf]

/-- The right rows yielded by a left join are the matched ones, and `None`. -/
theorem leftSpec_any [DecidableEq A] (none_ : A) (m : A → A → Bool) (left right : List A) (r : A)
    (hr : r ∈ right) (hn : r = none_ → left.any (fun l => m l none_) = true ∨
      ∀ l ∈ left, right.any (m l) = true) :
    (leftSpec none_ m left right).any (fun p => decide (p.2 = r)) = left.any (fun l => m l r) := by
  rw [Bool.eq_iff_iff]
  simp only [List.any_eq_true, leftSpec, List.mem_flatMap, decide_eq_true_eq]
  constructor
  · rintro ⟨p, ⟨l, hl, hp⟩, rfl⟩
    split at hp
    · obtain ⟨r', hr', rfl⟩ := List.mem_map.1 hp
      exact ⟨l, hl, (List.mem_filter.1 hr').2⟩
    · rename_i hany
      simp only [List.mem_singleton] at hp
      subst hp
      rcases hn rfl with h | h
      · simpa using h
      · exact absurd (h l hl) (by simpa using hany)
  · rintro ⟨l, hl, hm⟩
    refine ⟨(l, r), ⟨l, hl, ?_⟩, rfl⟩
    rw [if_pos ⟨r, hr, hm⟩]
    exact List.mem_map.2 ⟨r, List.mem_filter.2 ⟨hr, hm⟩, rfl⟩

/-! ## Nothing raises -/

theorem Term.Safe.eval {left right : List A} {t : Term A V E} (h : t.Safe left right) {l r : A}
    (hl : l ∈ left) (hr : r ∈ right) : ∃ w, t.eval l r = .ok w := by
  cases t with
  | neither v => exact h
  | left f => exact h l hl
  | right f => exact h r hr
  | both f => exact h l hl r hr

theorem Term.Safe.evalLeft {left right : List A} {t : Term A V E} (h : t.Safe left right)
    (hu : t.usesRight = false) {l : A} (hl : l ∈ left) (r : A) : ∃ w, t.eval l r = .ok w := by
  cases t with
  | neither v => exact h
  | left f => exact h l hl
  | right f => simp [Term.usesRight] at hu
  | both f => simp [Term.usesRight] at hu

theorem Term.Safe.evalRight {left right : List A} {t : Term A V E} (h : t.Safe left right)
    (hu : t.usesLeft = false) {r : A} (hr : r ∈ right) (l : A) : ∃ w, t.eval l r = .ok w := by
  cases t with
  | neither v => exact h
  | left f => simp [Term.usesLeft] at hu
  | right f => exact h r hr
  | both f => simp [Term.usesLeft] at hu

theorem const_terms (a : Atom A V E) (h : a.isConst = true) :
    ∀ t ∈ a.terms, t.usesLeft = false ∧ t.usesRight = false := by
  unfold Atom.isConst at h
  split at h
  · intro t ht
    simp only [Atom.terms, List.mem_cons, List.not_mem_nil, or_false] at ht
    rcases ht with rfl | rfl <;> simp_all
  · intro t ht
    simp only [Atom.terms, List.mem_singleton] at ht
    subst ht
    simp_all
  · simp at h

theorem filter_none [BEq V] (truthy : V → Bool) (xs : List A) :
    xs.filter (fun x => isTrue (allHold (E := E) truthy x x ([] : List (Atom A V E)))) = xs := by
  rw [List.filter_eq_self]
  intro x _
  rfl

/-- What `Safe` gives for the parts. -/
structure SafeParts [BEq V] (truthy : V → Bool) (p : Parts A V E) (left right : List A) : Prop where
  pre : ∀ x, ∃ b, allHold truthy x x p.pre = .ok b
  leftColl : ∀ l ∈ left, ∃ b, allHold truthy l l p.leftColl = .ok b
  rightColl : ∀ r ∈ right, ∃ b, allHold truthy r r p.rightColl = .ok b
  fst : ∀ l ∈ left, ∀ h ∈ p.hashers, ∃ w, h.1.eval l l = .ok w
  snd : ∀ r ∈ right, ∀ h ∈ p.hashers, ∃ w, h.2.eval r r = .ok w
  loop : ∀ l ∈ left, ∀ r ∈ right, ∃ b,
    allHold truthy l r (p.leftRow ++ p.rightRow ++ p.inner) = .ok b

theorem safeParts [BEq V] (truthy : V → Bool) (how : How) (c : Option (Cond A V E))
    (left right : List A) (hs : Safe left right c) :
    SafeParts truthy (fromCondition how c) left right := by
  have hp := parts_placed how c
  have hall : ∀ a ∈ (fromCondition how c).all, ∀ t ∈ a.terms, t.Safe left right := by
    intro a ha t ht
    rw [parts_all] at ha
    obtain ⟨a', ha', rfl⟩ := List.mem_map.1 ha
    exact hs a' ha' t ((normAtom_terms a' t).1 ht)
  simp only [Parts.all, List.mem_append] at hall
  refine ⟨fun x => allHold_ok _ _ _ _ (fun a ha => Atom.holds_ok _ _ _ _ (fun t ht => ?_)),
    fun l hl => allHold_ok _ _ _ _ (fun a ha => Atom.holds_ok _ _ _ _ (fun t ht => ?_)),
    fun r hr => allHold_ok _ _ _ _ (fun a ha => Atom.holds_ok _ _ _ _ (fun t ht => ?_)),
    fun l hl h hh => ?_, fun r hr h hh => ?_,
    fun l hl r hr => allHold_ok _ _ _ _ (fun a ha => Atom.holds_ok _ _ _ _ (fun t ht => ?_))⟩
  · have h1 := hall a (by grind) t ht
    have h2 := const_terms a (hp.pre a ha) t ht
    cases t with
    | neither v => exact h1
    | left f => simp [Term.usesLeft] at h2
    | right f => simp [Term.usesRight] at h2
    | both f => simp [Term.usesLeft] at h2
  · exact (hall a (by grind) t ht).evalLeft (hp.leftColl a ha t ht) hl _
  · exact (hall a (by grind) t ht).evalRight (hp.rightColl a ha t ht) hr _
  · obtain ⟨f, g, rfl⟩ := hp.hashers h hh
    exact (hall _ (.inr (List.mem_map_of_mem hh)) (.left f) (by simp [pairAtom, Atom.terms])).evalLeft
      rfl hl l
  · obtain ⟨f, g, rfl⟩ := hp.hashers h hh
    exact (hall _ (.inr (List.mem_map_of_mem hh)) (.right g) (by simp [pairAtom, Atom.terms])).evalRight
      rfl hr r
  · have ha' := List.mem_append.1 ha
    simp only [List.mem_append] at ha'
    exact (hall a (by grind) t ht).eval hl hr

theorem matchB_parts [BEq V] [EquivBEq V] (truthy : V → Bool) (how : How)
    (c : Option (Cond A V E)) (left right : List A) (hs : Safe left right c) (x l r : A)
    (hl : l ∈ left) (hr : r ∈ right) :
    matchB truthy c l r =
      (isTrue (allHold truthy x x (fromCondition how c).pre) &&
      (isTrue (allHold truthy l l (fromCondition how c).leftColl) &&
      (isTrue (allHold truthy r r (fromCondition how c).rightColl) &&
      pairOk truthy false (fromCondition how c).hashers
        ((fromCondition how c).leftRow ++ (fromCondition how c).rightRow ++ (fromCondition how c).inner)
        l r))) := by
  have sp := safeParts truthy how c left right hs
  rw [Bool.eq_iff_iff]
  have h0 : matchB truthy c l r = true ↔ satOpt truthy l r c = .ok true := isTrue_iff _
  rw [h0, C43_split_preserves truthy how c l r x]
  simp only [Bool.and_eq_true, isTrue_iff, pairOk, Bool.false_eq_true, if_false]
  have k1 := keyOf_ok ((fromCondition how c).hashers.map Prod.fst) l (fun t ht => by
    obtain ⟨h, hm, rfl⟩ := List.mem_map.1 ht
    exact sp.fst l hl h hm)
  have k2 := keyOf_ok ((fromCondition how c).hashers.map Prod.snd) r (fun t ht => by
    obtain ⟨h, hm, rfl⟩ := List.mem_map.1 ht
    exact sp.snd r hr h hm)
  have hk : (∃ k k', keyOf ((fromCondition how c).hashers.map Prod.fst) l = .ok k ∧
      keyOf ((fromCondition how c).hashers.map Prod.snd) r = .ok k' ∧ (k == k') = true) ↔
      (keyD ((fromCondition how c).hashers.map Prod.snd) r ==
        keyD ((fromCondition how c).hashers.map Prod.fst) l) = true := by
    rw [k1, k2]
    constructor
    · rintro ⟨k, k', h1, h2, h3⟩
      injection h1 with h1
      injection h2 with h2
      subst h1 h2
      exact BEq.symm h3
    · intro h
      exact ⟨_, _, rfl, rfl, BEq.symm h⟩
  rw [hk]

/-- `hashers` is not empty when the condition has a key conjunct. -/
theorem hashers_ne (how : How) (c : Option (Cond A V E))
    (h : ∃ a ∈ conjunctsOpt c, a.isKey = true) : (fromCondition how c).hashers ≠ [] := by
  obtain ⟨a, ha, hk⟩ := h
  have hm : normAtom a ∈ (fromCondition how c).all := by
    rw [parts_all]
    exact List.mem_map_of_mem ha
  intro he
  simp only [Parts.all, he, List.map_nil, List.append_nil] at hm
  have := (parts_placed how c).nonKey _ hm
  rw [normAtom_isKey, hk] at this
  simp at this

/-- There are right filters only when the condition has conjuncts on the right row alone. -/
theorem rightColl_nil (how : How) (c : Option (Cond A V E))
    (h : ∀ a ∈ conjunctsOpt c, a.rightOnly = false) : (fromCondition how c).rightColl = [] := by
  rw [List.eq_nil_iff_forall_not_mem]
  intro x hx
  have hp := parts_placed how c
  have hm : x ∈ (fromCondition how c).all := by
    simp only [Parts.all, List.mem_append]
    grind
  have hk := hp.nonKey x (by simp only [List.mem_append]; grind)
  rw [parts_all] at hm
  obtain ⟨a, ha, rfl⟩ := List.mem_map.1 hm
  have hn := normAtom_of_not_key a hk
  have := hp.rightOnly _ hx
  rw [hn, h a ha] at this
  simp at this

/-- The conditions on neither row hold. -/
theorem pre_holds [BEq V] (truthy : V → Bool) (how : How) (c : Option (Cond A V E)) (x : A)
    (h : ∀ a ∈ conjunctsOpt c, a.isConst = true → a.holds truthy x x = .ok true) :
    allHold truthy x x (fromCondition how c).pre = .ok true := by
  rw [allHold_true]
  intro y hy
  have hp := parts_placed how c
  have hm : y ∈ (fromCondition how c).all := by
    simp only [Parts.all, List.mem_append]
    grind
  have hk := hp.nonKey y (by simp only [List.mem_append]; grind)
  rw [parts_all] at hm
  obtain ⟨a, ha, rfl⟩ := List.mem_map.1 hm
  have hn := normAtom_of_not_key a hk
  have hc := hp.pre _ hy
  rw [hn] at hc ⊢
  exact h a ha hc

/-! ## C44: inner join -/

/-- C44 (partial): the inner join gives exactly the matching pairs, by left position and then right
position, when no conversion of the condition raises and the right side can be read again for every
left row: the condition has an equality between the two sides, or the right input is not an iterator
and no conjunct is on the right row alone, or there is at most one left row. -/
theorem C44_inner_partial [DecidableEq A] [BEq V] [EquivBEq V] (truthy : V → Bool) (none_ : A)
    (c : Option (Cond A V E)) (left right : List A) (oneShotLeft oneShotRight : Bool)
    (hs : Safe left right c)
    (hreuse : (∃ a ∈ conjunctsOpt c, a.isKey = true) ∨
      (oneShotRight = false ∧ ∀ a ∈ conjunctsOpt c, a.rightOnly = false) ∨ left.length ≤ 1) :
    joinRows truthy none_ .inner c left right oneShotLeft oneShotRight =
      .ok (innerSpec (matchB truthy c) left right) := by
  have sp := safeParts truthy .inner c left right hs
  have hm := matchB_parts truthy .inner c left right hs none_
  simp only [joinRows, reduceCtorEq, if_false]
  obtain ⟨b, hb⟩ := sp.pre none_
  cases b with
  | false =>
    have : innerSpec (matchB truthy c) left right = [] := by
      simp only [innerSpec, List.flatMap_eq_nil_iff, List.map_eq_nil_iff, List.filter_eq_nil_iff]
      intro l hl r hr
      rw [hm l r hl hr, hb]
      simp [isTrue]
    rw [this]
    simp only [joinCore, hb]
  | true =>
    rw [joinCore_ok truthy none_ false .inner (fromCondition .inner c) left right oneShotRight hb
      (by simpa using sp.rightColl) (by simpa using sp.leftColl) sp.snd sp.fst
      (by simpa using sp.loop) ?_]
    · simp only [Bool.false_eq_true, if_false]
      rw [innerPairs_eq]
      intro l hl r hr
      rw [hm l r hl hr, hb]
      simp only [isTrue, Bool.true_and]
    · rcases hreuse with h | ⟨h1, h2⟩ | h
      · exact .inl (hashers_ne .inner c h)
      · exact .inr (.inr (.inl ⟨h1, by simpa using rightColl_nil .inner c h2⟩))
      · exact .inr (.inr (.inr h))

/-- Concretely: an equality of keys with a filter on the right rows. -/
example : joinRows (A := Nat) (V := Nat) (E := Unit) (· != 0) 0 .inner
    (some (.and [.eq [.left (fun l => .ok (l % 10)), .right (fun r => .ok (r % 10))],
      .other (.right (fun r => .ok (r - 30)))]))
    [11, 12, 21] [31, 22, 41, 32] false false =
    .ok [(11, 31), (11, 41), (12, 32), (21, 31), (21, 41)] := by rfl

/-- C44 fails in general: with a filter on the right rows and no equality of keys, the right rows are
a generator, which is exhausted after the first left row. -/
theorem C44_refuted_generator : ∃ (c : Option (Cond Nat Nat Unit)) (left right : List Nat),
    Safe left right c ∧
    joinRows (· != 0) 0 .inner c left right false false = .ok [(1, 5), (1, 6)] ∧
    innerSpec (matchB (· != 0) c) left right = [(1, 5), (1, 6), (2, 5), (2, 6)] := by
  refine ⟨some (.other (.right .ok)), [1, 2], [5, 6], ?_, by rfl, by rfl⟩
  intro a ha t ht
  simp only [conjunctsOpt, Cond.conjuncts, List.mem_singleton] at ha
  subst ha
  simp only [Atom.terms, List.mem_singleton] at ht
  subst ht
  exact fun r _ => ⟨r, rfl⟩

/-- Also with no condition at all, when the right input is an iterator. -/
theorem C44_refuted_iterator :
    joinRows (A := Nat) (V := Nat) (E := Unit) (· != 0) 0 .inner none [1, 2] [5, 6] false true =
      .ok [(1, 5), (1, 6)] ∧
    innerSpec (matchB (V := Nat) (E := Unit) (· != 0) none) [1, 2] [5, 6] =
      [(1, 5), (1, 6), (2, 5), (2, 6)] := ⟨rfl, rfl⟩

/-- The order of evaluation changes: a join raises although its condition raises for no pair, since
the filter guarded by an earlier conjunct is evaluated for all left rows. -/
theorem C44_refuted_guard : ∃ (c : Option (Cond Nat Nat String)) (left right : List Nat),
    (∀ l ∈ left, ∀ r ∈ right, ∃ b, satOpt (· != 0) l r c = .ok b) ∧
    joinRows (· != 0) 0 .inner c left right false false = .error "ZeroDivisionError" := by
  refine ⟨some (.and [.other (.both (fun l r => .ok (l * r))),
    .other (.left (fun l => if l = 0 then .error "ZeroDivisionError" else .ok (7 / l)))]),
    [0, 1], [5], ?_, by rfl⟩
  intro l hl r hr
  simp only [List.mem_cons, List.not_mem_nil, or_false] at hl hr
  rcases hl with rfl | rfl <;> subst hr
  · exact ⟨false, rfl⟩
  · exact ⟨true, rfl⟩

/-! ## C45: left join -/

/-- C45 (partial): the left join gives every left row, in order, with its matching right rows in
order, or with `None`: when moreover the conjuncts on neither row hold. -/
theorem C45_left_partial [DecidableEq A] [BEq V] [EquivBEq V] (truthy : V → Bool) (none_ : A)
    (c : Option (Cond A V E)) (left right : List A) (oneShotLeft oneShotRight : Bool)
    (hs : Safe left right c)
    (hpre : ∀ a ∈ conjunctsOpt c, a.isConst = true → a.holds truthy none_ none_ = .ok true)
    (hreuse : (∃ a ∈ conjunctsOpt c, a.isKey = true) ∨
      (oneShotRight = false ∧ ∀ a ∈ conjunctsOpt c, a.rightOnly = false) ∨ left.length ≤ 1) :
    joinRows truthy none_ .left c left right oneShotLeft oneShotRight =
      .ok (leftSpec none_ (matchB truthy c) left right) := by
  have sp := safeParts truthy .left c left right hs
  have hm := matchB_parts truthy .left c left right hs none_
  have hb := pre_holds truthy .left c none_ hpre
  have hle := (parts_placed .left c).leftEmpty rfl
  simp only [joinRows, reduceCtorEq, if_false]
  rw [joinCore_ok truthy none_ false .left (fromCondition .left c) left right oneShotRight hb
    (by simpa using sp.rightColl) (by simpa using sp.leftColl) sp.snd sp.fst
    (by simpa using sp.loop) ?_]
  · simp only [Bool.false_eq_true, if_false, hle, filter_none]
    simp only [List.filter_filter]
    rw [leftPairs_eq none_ left right
      (fun l r => pairOk truthy false (fromCondition .left c).hashers
        ((fromCondition .left c).leftRow ++ (fromCondition .left c).rightRow ++
          (fromCondition .left c).inner) l r &&
        isTrue (allHold truthy r r (fromCondition .left c).rightColl))]
    intro l hl r hr
    rw [hm l r hl hr, hb, hle, Bool.and_comm (pairOk ..)]
    rfl
  · rcases hreuse with h | ⟨h1, h2⟩ | h
    · exact .inl (hashers_ne .left c h)
    · exact .inr (.inr (.inl ⟨h1, by simpa using rightColl_nil .left c h2⟩))
    · exact .inr (.inr (.inr h))

/-- Concretely. -/
example : joinRows (A := Nat) (V := Nat) (E := Unit) (· != 0) 0 .left
    (some (.and [.eq [.left (fun l => .ok (l % 10)), .right (fun r => .ok (r % 10))],
      .other (.left (fun l => .ok (l - 11)))]))
    [11, 12, 21, 13] [31, 22, 41] false false =
    .ok [(11, 0), (12, 22), (21, 31), (21, 41), (13, 0)] := by rfl

/-- C45 fails in general: when a conjunct on neither row is false, left rows are lost. -/
theorem C45_refuted_prefilter :
    joinRows (A := Nat) (V := Nat) (E := Unit) (· != 0) 0 .left (some (.other (.neither (.ok 0))))
      [1, 2] [5] false false = .ok [] ∧
    leftSpec 0 (matchB (E := Unit) (· != 0) (some (.other (.neither (.ok 0))))) [1, 2] [5] =
      [(1, 0), (2, 0)] := ⟨rfl, rfl⟩

/-- C45 fails in general: with a filter on the right rows and no equality of keys, only the first left
row is matched. -/
theorem C45_refuted_generator :
    joinRows (A := Nat) (V := Nat) (E := Unit) (· != 0) 0 .left (some (.other (.right .ok)))
      [1, 2] [5] false false = .ok [(1, 5), (2, 0)] ∧
    leftSpec 0 (matchB (E := Unit) (· != 0) (some (.other (.right .ok)))) [1, 2] [5] =
      [(1, 5), (2, 5)] := ⟨rfl, rfl⟩

/-! ## C46: right join -/

theorem keyD_same (hs : List (Term A V E × Term A V E))
    (h : ∀ x ∈ hs, ∃ f, x = (.left f, .right f)) (row : A) :
    keyD (hs.map Prod.fst) row = keyD (hs.map Prod.snd) row := by
  have : keyOf (hs.map Prod.fst) row = keyOf (hs.map Prod.snd) row := by
    induction hs with
    | nil => rfl
    | cons x hs ih =>
      obtain ⟨f, rfl⟩ := h x (by simp)
      simp only [List.map_cons, keyOf, Term.eval, ih (fun x hx => h x (by simp [hx]))]
  simp only [keyD, this]

theorem hashers_same (how : How) (c : Option (Cond A V E)) (h : ∀ a ∈ conjunctsOpt c, a.SameKey) :
    ∀ x ∈ (fromCondition how c).hashers, ∃ f, x = (.left f, .right f) := by
  intro x hx
  obtain ⟨f, g, rfl⟩ := (parts_placed how c).hashers x hx
  have hm : pairAtom (.left f, .right g) ∈ (fromCondition how c).all := by
    simp only [Parts.all, List.mem_append]
    exact .inr (List.mem_map_of_mem hx)
  rw [parts_all] at hm
  obtain ⟨a, ha, hn⟩ := List.mem_map.1 hm
  have hk := h a ha
  rcases normAtom_cases a with h' | ⟨f', g', rfl, h'⟩
  · rw [h'] at hn
    subst hn
    simp only [pairAtom, Atom.SameKey] at hk
    exact ⟨f, by rw [hk]⟩
  · rw [h'] at hn
    simp only [pairAtom, Atom.eq.injEq, List.cons.injEq, Term.left.injEq, Term.right.injEq,
      and_true] at hn
    simp only [Atom.SameKey] at hk
    obtain ⟨rfl, rfl⟩ := hn
    exact ⟨g', by rw [hk]⟩

/-- C46 (partial): the right join gives every right row, in order, with its matching left rows in
order, or with `None`: when no conjunct is on the right row alone, equalities of keys compute the
same on both sides, conjuncts on neither row hold, and the left side can be read again. -/
theorem C46_right_partial [DecidableEq A] [BEq V] [EquivBEq V] (truthy : V → Bool) (none_ : A)
    (c : Option (Cond A V E)) (left right : List A) (oneShotLeft oneShotRight : Bool)
    (hs : Safe left right c)
    (hpre : ∀ a ∈ conjunctsOpt c, a.isConst = true → a.holds truthy none_ none_ = .ok true)
    (hright : ∀ a ∈ conjunctsOpt c, a.rightOnly = false)
    (hsame : ∀ a ∈ conjunctsOpt c, a.SameKey)
    (hreuse : (∃ a ∈ conjunctsOpt c, a.isKey = true) ∨ oneShotLeft = false ∨ right.length ≤ 1) :
    joinRows truthy none_ .right c left right oneShotLeft oneShotRight =
      .ok (rightSpec none_ (matchB truthy c) left right) := by
  have sp := safeParts truthy .left c left right hs
  have hm := matchB_parts truthy .left c left right hs none_
  have hb := pre_holds truthy .left c none_ hpre
  have hle := (parts_placed .left c).leftEmpty rfl
  have hri := rightColl_nil .left c hright
  have hsm := hashers_same .left c hsame
  simp only [joinRows, if_true]
  rw [joinCore_ok truthy none_ true .left (fromCondition .left c) right left oneShotLeft hb
    (by simpa using sp.leftColl) (by simpa using sp.rightColl) ?_ ?_
    (by
      intro r hr l hl
      simpa using sp.loop l hl r hr) ?_]
  · simp only [if_true, hle, hri, filter_none]
    rw [swappedPairs_eq none_ left right
      (fun r l => pairOk truthy true (fromCondition .left c).hashers
        ((fromCondition .left c).leftRow ++ (fromCondition .left c).rightRow ++
          (fromCondition .left c).inner) r l)]
    intro l hl r hr
    rw [hm l r hl hr, hb, hle, hri]
    simp only [allHold, isTrue, Bool.true_and, pairOk, Bool.false_eq_true, if_false, if_true]
    rw [keyD_same _ hsm l, keyD_same _ hsm r, BEq.comm]
  · intro l hl h hh
    obtain ⟨f, rfl⟩ := hsm h hh
    exact sp.fst l hl _ hh
  · intro r hr h hh
    obtain ⟨f, rfl⟩ := hsm h hh
    exact sp.snd r hr _ hh
  · rcases hreuse with h | h1 | h
    · exact .inl (hashers_ne .left c h)
    · exact .inr (.inr (.inl ⟨h1, by simpa using hle⟩))
    · exact .inr (.inr (.inr h))

/-- Concretely. -/
example : joinRows (A := Nat) (V := Nat) (E := Unit) (· != 0) 0 .right
    (some (.and [.eq [.left (fun l => .ok (l % 10)), .right (fun r => .ok (r % 10))],
      .other (.left (fun l => .ok (l - 11)))]))
    [11, 12, 21, 32] [31, 22, 43] false false =
    .ok [(21, 31), (12, 22), (32, 22), (0, 43)] := by rfl

/-- C46 fails in general: the hash keys of the two sides are exchanged. -/
theorem C46_refuted_hashers : ∃ (c : Option (Cond Nat Nat Unit)),
    joinRows (· != 0) 0 .right c [1, 2] [1, 2] false false = .ok [(0, 1), (1, 2)] ∧
    rightSpec 0 (matchB (· != 0) c) [1, 2] [1, 2] = [(2, 1), (0, 2)] :=
  ⟨some (.eq [.left (fun l => .ok l), .right (fun r => .ok (r + 1))]), rfl, rfl⟩

/-- C46 fails in general: conjuncts on the right row alone remove right rows. -/
theorem C46_refuted_filters : ∃ (c : Option (Cond Nat Nat Unit)),
    joinRows (· != 0) 0 .right c [1] [0, 2] false false = .ok [(1, 2)] ∧
    rightSpec 0 (matchB (· != 0) c) [1] [0, 2] = [(0, 0), (1, 2)] :=
  ⟨some (.other (.right .ok)), rfl, rfl⟩

/-! ## C47: outer join -/

/-- C47 (partial): the outer join is the left join followed by the unmatched right rows in order: when
conjuncts on neither row hold, and `None` is not an unmatched right row while some left row is
unmatched. -/
theorem C47_outer_partial [DecidableEq A] [BEq V] [EquivBEq V] (truthy : V → Bool) (none_ : A)
    (c : Option (Cond A V E)) (left right : List A) (oneShotLeft oneShotRight : Bool)
    (hs : Safe left right c)
    (hpre : ∀ a ∈ conjunctsOpt c, a.isConst = true → a.holds truthy none_ none_ = .ok true)
    (hnone : none_ ∈ right → left.any (fun l => matchB truthy c l none_) = true ∨
      ∀ l ∈ left, right.any (matchB truthy c l) = true) :
    joinRows truthy none_ .outer c left right oneShotLeft oneShotRight =
      .ok (outerSpec none_ (matchB truthy c) left right) := by
  have sp := safeParts truthy .outer c left right hs
  have hm := matchB_parts truthy .outer c left right hs none_
  have hb := pre_holds truthy .outer c none_ hpre
  have hle := (parts_placed .outer c).leftEmpty rfl
  have hri := (parts_placed .outer c).rightEmpty rfl
  simp only [joinRows, reduceCtorEq, if_false]
  rw [joinCore_ok truthy none_ false .outer (fromCondition .outer c) left right oneShotRight hb
    (by simpa using sp.rightColl) (by simpa using sp.leftColl) sp.snd sp.fst
    (by simpa using sp.loop) (.inr (.inl rfl))]
  simp only [Bool.false_eq_true, if_false, hle, hri, filter_none]
  rw [leftPairs_eq none_ left right
    (fun l r => pairOk truthy false (fromCondition .outer c).hashers
      ((fromCondition .outer c).leftRow ++ (fromCondition .outer c).rightRow ++
        (fromCondition .outer c).inner) l r) (matchB truthy c)]
  · simp only [addRightPart, outerSpec]
    congr 2
    congr 1
    apply List.filter_congr
    intro r hr
    rw [leftSpec_any none_ (matchB truthy c) left right r hr (fun he => hnone (he ▸ hr))]
  · intro l hl r hr
    rw [hm l r hl hr, hb, hle, hri]
    simp only [allHold, isTrue, Bool.true_and]

/-- Concretely. -/
example : joinRows (A := Nat) (V := Nat) (E := Unit) (· != 0) 0 .outer
    (some (.and [.eq [.left (fun l => .ok (l % 10)), .right (fun r => .ok (r % 10))],
      .other (.right (fun r => .ok (r - 31)))]))
    [11, 12, 21, 32] [31, 22, 43, 62] true true =
    .ok [(11, 0), (12, 62), (21, 0), (32, 62), (0, 31), (0, 22), (0, 43)] := by rfl

/-- C47 fails in general: an unmatched right item `None` is lost when a left row is unmatched. -/
theorem C47_refuted_none :
    joinRows (A := Nat) (V := Nat) (E := Unit) (· != 0) 0 .outer
      (some (.other (.both (fun _ _ => .ok 0)))) [1] [0, 2] false false =
      .ok [(1, 0), (0, 2)] ∧
    outerSpec 0 (matchB (E := Unit) (· != 0) (some (.other (.both (fun _ _ => .ok 0))))) [1] [0, 2] =
      [(1, 0), (0, 0), (0, 2)] := ⟨rfl, rfl⟩

/-- C47 fails in general: when a conjunct on neither row is false, all rows are lost. -/
theorem C47_refuted_prefilter :
    joinRows (A := Nat) (V := Nat) (E := Unit) (· != 0) 0 .outer
      (some (.other (.neither (.ok 0)))) [1] [2] false false = .ok [] ∧
    outerSpec 0 (matchB (E := Unit) (· != 0) (some (.other (.neither (.ok 0))))) [1] [2] =
      [(1, 0), (0, 2)] := ⟨rfl, rfl⟩

end Verif.Join
