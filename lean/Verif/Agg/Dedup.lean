import Verif.Agg.Lemmas

/-! # The loop that finds identical reduces -/
set_option autoImplicit false

namespace Verif.Agg

open Verif

variable {R V E K : Type}

/-- What holds after the loop has processed the reduces `dn`. -/
structure DedupInv (aggMode : Bool) (st : Dedup R V E) (dn : List (Red R V E)) : Prop where
  slots : ∀ (j : Nat) (it : Item R V E), st.items[j]? = some it → it.slot = j
  reds : ∀ it ∈ st.items, it.red ∈ dn
  len : st.slotOf.length = dn.length
  share : ∀ (i : Nat) r, dn[i]? = some r → ∃ (j : Nat) (it : Item R V E),
    st.slotOf[i]? = some j ∧ st.items[j]? = some it ∧ it.red.hash = r.hash
  seen : ∀ h (j : Nat), Dict.get? st.seen h = some j → ∃ it, st.items[j]? = some it ∧ it.red.hash = h
  flag : aggMode = true → ∀ it ∈ st.items, ∃ m, m < dn.length ∧ it.flag = 1 <<< m
  flagNe : aggMode = true → (st.items.map Item.flag).Nodup
  exp : ∀ n, st.expected.testBit n = true ↔ ∃ it ∈ st.items, it.flag.testBit n = true

theorem dedupInv_nil (aggMode : Bool) : DedupInv aggMode ({} : Dedup R V E) [] :=
  ⟨by simp, by simp, rfl, by simp, by simp [Dict.get?], by simp, by simp, by simp⟩

theorem shiftLeft_inj {a b : Nat} (h : 1 <<< a = 1 <<< b) : a = b := by
  rw [Nat.one_shiftLeft, Nat.one_shiftLeft] at h
  exact (Nat.pow_right_inj (by decide)).1 h

theorem dedupStep_inv (aggMode : Bool) (st : Dedup R V E) (dn : List (Red R V E)) (r : Red R V E)
    (h : DedupInv aggMode st dn) :
    DedupInv aggMode (dedupStep aggMode st dn.length r) (dn ++ [r]) := by
  unfold dedupStep
  cases hg : Dict.get? st.seen r.hash with
  | some j =>
    simp only
    obtain ⟨it, h1, h2⟩ := h.seen _ _ hg
    refine ⟨h.slots, fun it hit => by simp [h.reds it hit], by simp [h.len], ?_, h.seen, ?_,
      h.flagNe, h.exp⟩
    · intro i r' hr'
      by_cases hi : i < dn.length
      · rw [List.getElem?_append_left hi] at hr'
        obtain ⟨j', it', a, b, c⟩ := h.share i r' hr'
        exact ⟨j', it', by simpa [List.getElem?_append_left, h.len, hi] using a, b, c⟩
      · rw [List.getElem?_append_right (by omega)] at hr'
        have hi0 : i - dn.length = 0 := by
          rcases Nat.eq_zero_or_pos (i - dn.length) with h0 | h0
          · exact h0
          · rw [List.getElem?_eq_none (by simp; omega)] at hr'; simp at hr'
        have : i = dn.length := by omega
        subst this
        simp only [Nat.sub_self, List.getElem?_cons_zero, Option.some.injEq] at hr'
        subst hr'
        exact ⟨j, it, by simp [← h.len], h1, h2⟩
    · intro ha it' hit'
      obtain ⟨m, h1, h2⟩ := h.flag ha it' hit'
      exact ⟨m, by simp; omega, h2⟩
  | none =>
    simp only
    refine ⟨?_, ?_, by simp [h.len], ?_, ?_, ?_, ?_, ?_⟩
    · intro j it hj
      by_cases hl : j < st.items.length
      · rw [List.getElem?_append_left hl] at hj; exact h.slots j it hj
      · rw [List.getElem?_append_right (by omega)] at hj
        have h0 : j - st.items.length = 0 := by
          rcases Nat.eq_zero_or_pos (j - st.items.length) with h0 | h0
          · exact h0
          · rw [List.getElem?_eq_none (by simp; omega)] at hj; simp at hj
        rw [h0] at hj
        simp only [List.getElem?_cons_zero, Option.some.injEq] at hj
        subst hj
        show st.items.length = j
        omega
    · intro it hit
      simp only [List.mem_append, List.mem_singleton] at hit
      rcases hit with hit | rfl
      · simp [h.reds it hit]
      · simp
    · intro i r' hr'
      by_cases hi : i < dn.length
      · rw [List.getElem?_append_left hi] at hr'
        obtain ⟨j', it', a, b, c⟩ := h.share i r' hr'
        have hlt : j' < st.items.length := (List.getElem?_eq_some_iff.1 b).1
        exact ⟨j', it', by simpa [List.getElem?_append_left, h.len, hi] using a,
          by rw [List.getElem?_append_left hlt]; exact b, c⟩
      · rw [List.getElem?_append_right (by omega)] at hr'
        have hi0 : i - dn.length = 0 := by
          rcases Nat.eq_zero_or_pos (i - dn.length) with h0 | h0
          · exact h0
          · rw [List.getElem?_eq_none (by simp; omega)] at hr'; simp at hr'
        have : i = dn.length := by omega
        subst this
        simp only [Nat.sub_self, List.getElem?_cons_zero, Option.some.injEq] at hr'
        subst hr'
        exact ⟨st.items.length, _, by simp [← h.len], by simp; rfl, rfl⟩
    · intro hs j hj
      rw [Dict.get?_set] at hj
      by_cases he : r.hash == hs
      · simp only [he, if_true, Option.some.injEq] at hj
        subst hj
        exact ⟨_, by simp; rfl, eq_of_beq he⟩
      · simp only [he, Bool.false_eq_true, if_false] at hj
        obtain ⟨it, h1, h2⟩ := h.seen _ _ hj
        have hlt : j < st.items.length := (List.getElem?_eq_some_iff.1 h1).1
        exact ⟨it, by rw [List.getElem?_append_left hlt]; exact h1, h2⟩
    · intro ha it hit
      simp only [List.mem_append, List.mem_singleton] at hit
      rcases hit with hit | rfl
      · obtain ⟨m, h1, h2⟩ := h.flag ha it hit
        exact ⟨m, by simp; omega, h2⟩
      · exact ⟨dn.length, by simp, by simp [ha]⟩
    · intro ha
      rw [List.map_append, List.nodup_append]
      refine ⟨h.flagNe ha, by simp, ?_⟩
      intro a ha' b hb
      obtain ⟨it, hit, rfl⟩ := List.mem_map.1 ha'
      simp only [List.map_cons, List.map_nil, List.mem_singleton] at hb
      subst hb
      obtain ⟨m, h1, h2⟩ := h.flag ha it hit
      rw [h2]
      simp only [ha, if_true]
      intro hc
      have := shiftLeft_inj hc
      omega
    · intro n
      rw [Nat.testBit_or, Bool.or_eq_true, h.exp n]
      constructor
      · rintro (⟨it, h1, h2⟩ | h1)
        · exact ⟨it, by simp [h1], h2⟩
        · exact ⟨_, by simp; right; rfl, h1⟩
      · rintro ⟨it, h1, h2⟩
        simp only [List.mem_append, List.mem_singleton] at h1
        rcases h1 with h1 | rfl
        · exact Or.inl ⟨it, h1, h2⟩
        · exact Or.inr h2

theorem dedupLoop_inv (aggMode : Bool) (st : Dedup R V E) (dn rs : List (Red R V E))
    (h : DedupInv aggMode st dn) :
    DedupInv aggMode (dedupLoop aggMode st dn.length rs) (dn ++ rs) := by
  induction rs generalizing st dn with
  | nil => simpa [dedupLoop] using h
  | cons r rs ih =>
    have := ih _ _ (dedupStep_inv aggMode st dn r h)
    simpa [dedupLoop] using this

theorem compile_inv (aggMode : Bool) (rs : List (Red R V E)) :
    DedupInv aggMode (compile aggMode rs) rs := by
  have := dedupLoop_inv aggMode {} [] rs (dedupInv_nil aggMode)
  simpa [compile] using this

theorem compile_slots_nodup (aggMode : Bool) (rs : List (Red R V E)) :
    ((compile aggMode rs).items.map Item.slot).Nodup := by
  have inv := compile_inv aggMode rs
  rw [List.Nodup, List.pairwise_iff_getElem]
  intro i j hi hj hij hc
  rw [List.getElem_map, List.getElem_map] at hc
  rw [inv.slots i _ (List.getElem?_eq_getElem _), inv.slots j _ (List.getElem?_eq_getElem _)] at hc
  omega

/-- Under a faithful hash the slot read for reduce number `i` is the slot of a reduce with the same
behaviour. -/
theorem compile_share (aggMode : Bool) (rs : List (Red R V E)) (hf : Faithful rs) (i : Nat)
    (r : Red R V E) (hr : rs[i]? = some r) :
    ∃ it ∈ (compile aggMode rs).items, (compile aggMode rs).slotOf[i]? = some it.slot ∧
      it.red.cond = r.cond ∧ it.red.init = r.init ∧ it.red.two = r.two := by
  have inv := compile_inv aggMode rs
  obtain ⟨j, it, h1, h2, h3⟩ := inv.share i r hr
  have hm : it ∈ (compile aggMode rs).items := List.mem_of_getElem? h2
  refine ⟨it, hm, ?_, hf _ (inv.reds it hm) _ (List.mem_of_getElem? hr) h3⟩
  rw [inv.slots j it h2]; exact h1

theorem alone_congr (condSem : String → R → Except E Bool) (r r' : Red R V E) (rows : List R)
    (h : r.cond = r'.cond ∧ r.init = r'.init ∧ r.two = r'.two) :
    alone condSem r rows = alone condSem r' rows := by
  have hf : ∀ v ks, foldRows r v ks = foldRows r' v ks := by
    intro v ks
    induction ks generalizing v with
    | nil => cases v <;> rfl
    | cons a ks ih => cases v <;> simp only [foldRows, h.2.1, h.2.2, ih]
  simp only [alone, h.1, hf]

theorem allAlone_iff (condSem : String → R → Except E Bool) (rows : List R)
    (rs : List (Red R V E)) (out : List (Option V)) :
    allAlone condSem rows rs = .ok out ↔
      out.length = rs.length ∧ ∀ (i : Nat) r, rs[i]? = some r →
        ∃ v, out[i]? = some v ∧ alone condSem r rows = .ok v := by
  induction rs generalizing out with
  | nil =>
    simp only [allAlone, Except.ok.injEq, List.length_nil, List.length_eq_zero_iff]
    constructor
    · rintro rfl; simp
    · rintro ⟨rfl, _⟩; rfl
  | cons r rs ih =>
    simp only [allAlone]
    cases h1 : alone condSem r rows with
    | error e =>
      simp only [reduceCtorEq, false_iff, not_and]
      intro _ h
      obtain ⟨v, _, h2⟩ := h 0 r (by simp)
      rw [h1] at h2; simp at h2
    | ok v =>
      cases h2 : allAlone condSem rows rs with
      | error e =>
        simp only [reduceCtorEq, false_iff, not_and]
        intro hl h
        have hno : ∀ o, ¬ (allAlone condSem rows rs = .ok o) := by simp [h2]
        refine hno out.tail ((ih _).2 ⟨by simp [hl], ?_⟩)
        intro i r' hr'
        obtain ⟨w, hw, ha⟩ := h (i + 1) r' (by simpa using hr')
        exact ⟨w, by simpa [List.getElem?_tail] using hw, ha⟩
      | ok vs =>
        have ih' := (ih vs).1 h2
        simp only [Except.ok.injEq]
        constructor
        · rintro rfl
          refine ⟨by simp [ih'.1], ?_⟩
          intro i r' hr'
          cases i with
          | zero => simp only [List.getElem?_cons_zero, Option.some.injEq] at hr'; subst hr'
                    exact ⟨v, by simp, h1⟩
          | succ i => simpa using ih'.2 i r' (by simpa using hr')
        · rintro ⟨hl, h⟩
          cases out with
          | nil => simp at hl
          | cons w ws =>
            obtain ⟨w', hw, ha⟩ := h 0 r (by simp)
            rw [h1] at ha
            simp only [List.getElem?_cons_zero, Option.some.injEq, Except.ok.injEq] at hw ha
            have hws : allAlone condSem rows rs = .ok ws := (ih ws).2 ⟨by simpa using hl, by
              intro i r' hr'
              simpa using h (i + 1) r' (by simpa using hr')⟩
            rw [h2] at hws
            simp only [Except.ok.injEq] at hws
            rw [hws, hw, ha]

/-- Reading the slots per reduce gives every reduce computed alone, once every block part has its
own result in its slot. -/
theorem read_slots (aggMode : Bool) (condSem : String → R → Except E Bool) (rs : List (Red R V E))
    (hf : Faithful rs) (rows : List R) (s : Slots V)
    (h : ∀ p ∈ allParts (reduceBlocks (compile aggMode rs).items),
      alone condSem p.2 rows = .ok (s p.1)) :
    allAlone condSem rows rs = .ok ((compile aggMode rs).slotOf.map s) := by
  rw [allAlone_iff]
  refine ⟨by simp [(compile_inv aggMode rs).len], ?_⟩
  intro i r hr
  obtain ⟨it, h1, h2, h3⟩ := compile_share aggMode rs hf i r hr
  have hm : it.pair ∈ allParts (reduceBlocks (compile aggMode rs).items) :=
    (allParts_perm _).mem_iff.2 (List.mem_map_of_mem h1)
  refine ⟨s it.slot, by simp [h2], ?_⟩
  rw [← alone_congr condSem _ _ rows h3]
  exact h _ hm

/-- Conversely every block part is one of the reduces, so it succeeds when they all do. -/
theorem parts_ok (aggMode : Bool) (condSem : String → R → Except E Bool) (rs : List (Red R V E))
    (rows : List R) (out : List (Option V)) (h : allAlone condSem rows rs = .ok out) :
    ∀ p ∈ allParts (reduceBlocks (compile aggMode rs).items),
      ∃ v, alone condSem p.2 rows = .ok v := by
  intro p hp
  obtain ⟨it, hit, rfl⟩ := List.mem_map.1 ((allParts_perm _).mem_iff.1 hp)
  have := (compile_inv aggMode rs).reds it hit
  obtain ⟨i, hi⟩ := List.getElem?_of_mem this
  obtain ⟨v, _, hv⟩ := ((allAlone_iff ..).1 h).2 i _ hi
  exact ⟨v, hv⟩

end Verif.Agg
