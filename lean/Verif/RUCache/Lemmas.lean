import Verif.RUCache.Spec
/-! Helper lemmas: the eviction loop, and the simulation between `RUCache` and the clock queue. -/
set_option linter.unusedSectionVars false
set_option linter.unusedSimpArgs false
set_option autoImplicit false

namespace Verif.RUCache

variable {K V : Type} [BEq K] [LawfulBEq K]

theorem erases_nodup (T pb : List K) (h : pb.Nodup) : (T.foldl List.erase pb).Nodup := by
  induction T generalizing pb with
  | nil => simpa
  | cons k T ih => exact ih _ (h.erase k)

theorem mem_erases (T pb : List K) (h : pb.Nodup) (x : K) :
    x ∈ T.foldl List.erase pb ↔ x ∈ pb ∧ x ∉ T := by
  induction T generalizing pb with
  | nil => simp
  | cons k T ih =>
    simp only [List.foldl_cons, ih _ (h.erase k), List.mem_cons, h.mem_erase_iff]
    constructor
    · rintro ⟨⟨h1, h2⟩, h3⟩
      exact ⟨h2, fun hc => hc.elim h1 h3⟩
    · rintro ⟨h1, h2⟩
      exact ⟨⟨fun hc => h2 (.inl hc), h1⟩, fun hc => h2 (.inr hc)⟩

theorem of_mem_takeWhile {α : Type} (p : α → Bool) (l : List α) (x : α)
    (h : x ∈ l.takeWhile p) : p x = true := by
  induction l with
  | nil => simp at h
  | cons a l ih =>
    rw [List.takeWhile_cons] at h
    split at h
    · rcases List.mem_cons.1 h with rfl | h
      · assumption
      · exact ih h
    · simp at h

theorem getLast?_of_reverse {l : List K} {k : K} {r : List K} (h : l.reverse = k :: r) :
    l.getLast? = some k := by
  have : l = r.reverse ++ [k] := by
    have := congrArg List.reverse h
    simpa using this
  simp [this]

theorem dropLast_of_reverse {l : List K} {k : K} {r : List K} (h : l.reverse = k :: r) :
    l.dropLast = r.reverse := by
  have : l = r.reverse ++ [k] := by
    have := congrArg List.reverse h
    simpa using this
  simp [this]

theorem evictLoop_rotate (expected : Int) (T : List K) : ∀ (R : List K) (m : Nat) (c : Cache K V)
    (calls : List (K × V)), c.keys.reverse = T ++ R → T.Nodup → (∀ k ∈ T, k ∈ c.putBack) →
    ((T ++ R).length : Int) > expected →
    evictLoop expected (T.length + m) c calls =
      evictLoop expected m
        { c with keys := (R ++ T).reverse, putBack := T.foldl List.erase c.putBack } calls := by
  induction T with
  | nil =>
    intro R m c calls hk _ _ _
    have : c.keys = R.reverse := by
      have := congrArg List.reverse hk
      simpa using this
    simp [this.symm]
  | cons k T ih =>
    intro R m c calls hk hnd hpb hlen
    have hl : (c.keys.length : Int) > expected := by
      have h1 : c.keys.length = (k :: T ++ R).length := by rw [← hk]; simp
      rw [h1]; exact hlen
    have e : (k :: T).length + m = (T.length + m) + 1 := by simp; omega
    rw [e, evictLoop, if_pos hl, getLast?_of_reverse hk]
    have hkp : c.putBack.contains k = true := by
      simpa using hpb k (by simp)
    simp only [hkp, if_true]
    rw [dropLast_of_reverse hk]
    rw [ih (R ++ [k]) m]
    · simp
    · simp
    · exact (List.nodup_cons.1 hnd).2
    · intro x hx
      have hxk : x ≠ k := by
        rintro rfl; exact (List.nodup_cons.1 hnd).1 hx
      exact (List.mem_erase_of_ne hxk).2 (hpb x (by simp [hx]))
    · simp at hlen ⊢; omega

theorem evictLoop_pop (expected : Int) (m : Nat) (c : Cache K V) (calls : List (K × V)) (u : K)
    (R : List K) (v : V) (hk : c.keys.reverse = u :: R) (hu : u ∉ c.putBack)
    (hv : Dict.get? c.data u = some v) (h1 : ((R.length + 1 : Nat) : Int) > expected)
    (h2 : (R.length : Int) ≤ expected) :
    evictLoop expected (m + 1) c calls =
      ⟨{ c with keys := R.reverse, data := Dict.erase c.data u }, calls ++ [(u, v)], none⟩ := by
  have hl : (c.keys.length : Int) > expected := by
    have : c.keys.length = (u :: R).length := by rw [← hk]; simp
    rw [this]; simpa using h1
  rw [evictLoop, if_pos hl, getLast?_of_reverse hk]
  have : c.putBack.contains u = false := by simpa using hu
  simp only [this, Bool.false_eq_true, if_false, hv, dropLast_of_reverse hk]
  cases m with
  | zero => rfl
  | succ m =>
    rw [evictLoop, if_neg]
    simp; omega

/-- The simulation relation between the implementation and the clock queue. -/
structure Rel (n : Nat) (c : Cache K V) (q : Spec.Queue K V) : Prop where
  size : c.maxSize = n
  pos : 1 ≤ n
  keys : c.keys.reverse = q.map (·.key)
  nodup : (q.map (·.key)).Nodup
  dnodup : (Dict.keys c.data).Nodup
  data : ∀ k, Dict.get? c.data k = Spec.lookup q k
  used : ∀ e ∈ q, e.used = c.putBack.contains e.key
  pb : ∀ k ∈ c.putBack, k ∈ q.map (·.key)
  pbnodup : c.putBack.Nodup
  len : q.length ≤ n

theorem lookup_isSome (q : Spec.Queue K V) (k : K) :
    (Spec.lookup q k).isSome ↔ k ∈ q.map (·.key) := by
  simp [Spec.lookup, List.find?_isSome]

theorem lookup_eq_some (q : Spec.Queue K V) (h : (q.map (·.key)).Nodup) (e : Spec.Entry K V)
    (he : e ∈ q) : Spec.lookup q e.key = some e.val := by
  induction q with
  | nil => simp at he
  | cons a q ih =>
    simp only [List.map_cons, List.nodup_cons] at h
    rcases List.mem_cons.1 he with rfl | he
    · simp [Spec.lookup]
    · have hne : (a.key == e.key) = false := by
        simp only [beq_eq_false_iff_ne, ne_eq]
        intro hc
        exact h.1 (hc ▸ List.mem_map.2 ⟨e, he, rfl⟩)
      have := ih h.2 he
      simpa [Spec.lookup, List.find?_cons, hne] using this

theorem setAdd_nodup (s : List K) (k : K) (h : s.Nodup) : (setAdd s k).Nodup := by
  unfold setAdd
  split
  · exact h
  · rename_i hk
    exact List.nodup_cons.2 ⟨by simpa using hk, h⟩

theorem mem_setAdd (s : List K) (k x : K) : x ∈ setAdd s k ↔ x = k ∨ x ∈ s := by
  unfold setAdd
  split
  · rename_i hk
    constructor
    · exact .inr
    · rintro (rfl | h)
      · simpa using hk
      · exact h
  · simp

theorem touch_keys (q : Spec.Queue K V) (k : K) :
    (Spec.touch q k).map (·.key) = q.map (·.key) := by
  simp only [Spec.touch, List.map_map]
  apply List.map_congr_left
  intro e _
  simp only [Function.comp]
  split <;> rfl

theorem overwrite_keys (q : Spec.Queue K V) (k : K) (v : V) :
    (Spec.overwrite q k v).map (·.key) = q.map (·.key) := by
  simp only [Spec.overwrite, List.map_map]
  apply List.map_congr_left
  intro e _
  simp only [Function.comp]
  split <;> rfl

theorem touch_lookup (q : Spec.Queue K V) (k x : K) :
    Spec.lookup (Spec.touch q k) x = Spec.lookup q x := by
  induction q with
  | nil => rfl
  | cons a q ih =>
    simp only [Spec.lookup, Spec.touch, List.map_cons, List.find?_cons] at ih ⊢
    by_cases h : a.key == k <;> by_cases h2 : a.key == x <;> simp [h, h2] at ih ⊢ <;> exact ih

theorem overwrite_lookup (q : Spec.Queue K V) (k x : K) (v : V)
    (hk : k ∈ q.map (·.key)) :
    Spec.lookup (Spec.overwrite q k v) x = if k == x then some v else Spec.lookup q x := by
  induction q with
  | nil => simp at hk
  | cons a q ih =>
    by_cases h : a.key == k
    · have hak := eq_of_beq h
      by_cases h2 : k == x
      · have := eq_of_beq h2; subst this
        simp [Spec.lookup, Spec.overwrite, hak]
      · have h2' : (k == x) = false := by simpa using h2
        have hax : (a.key == x) = false := by rw [hak]; exact h2'
        by_cases hq : k ∈ q.map (·.key)
        · have := ih hq
          simp only [h2', Bool.false_eq_true, if_false] at this ⊢
          simp only [Spec.lookup, Spec.overwrite, List.map_cons, h, if_true, List.find?_cons, hax]
            at this ⊢
          exact this
        · simp only [h2', Bool.false_eq_true, if_false]
          simp only [Spec.lookup, Spec.overwrite, List.map_cons, h, if_true, List.find?_cons, hax]
          have : (q.map fun e => if e.key == k then { e with val := v, used := true } else e) = q := by
            conv => rhs; rw [← List.map_id q]
            apply List.map_congr_left
            intro e he
            have : (e.key == k) = false := by
              simp only [beq_eq_false_iff_ne, ne_eq]
              rintro rfl
              exact hq (List.mem_map.2 ⟨e, he, rfl⟩)
            simp [this]
          rw [this]
    · have hq : k ∈ q.map (·.key) := by
        rcases List.mem_cons.1 hk with hc | hc
        · exact absurd (by simp [hc]) h
        · exact hc
      have := ih hq
      have h' : (a.key == k) = false := by simpa using h
      simp only [Spec.lookup, Spec.overwrite, List.map_cons, h', Bool.false_eq_true, if_false,
        List.find?_cons] at this ⊢
      by_cases h2 : a.key == x
      · have : (k == x) = false := by
          simp only [beq_eq_false_iff_ne, ne_eq]
          rintro rfl
          exact h h2
        simp [h2, this]
      · simp only [h2]
        exact this

theorem rel_touch {n : Nat} {c : Cache K V} {q : Spec.Queue K V} (r : Rel n c q) (k : K)
    (hk : k ∈ q.map (·.key)) :
    Rel n { c with putBack := setAdd c.putBack k } (Spec.touch q k) where
  size := r.size
  pos := r.pos
  keys := by rw [touch_keys]; exact r.keys
  nodup := by rw [touch_keys]; exact r.nodup
  dnodup := r.dnodup
  data := by intro x; rw [touch_lookup]; exact r.data x
  used := by
    intro e he
    simp only [Spec.touch, List.mem_map] at he
    obtain ⟨e', he', rfl⟩ := he
    have hu := r.used e' he'
    by_cases h : e'.key == k
    · have := eq_of_beq h
      simp [this, mem_setAdd]
    · have hne : e'.key ≠ k := by simpa using h
      simp only [h, Bool.false_eq_true, if_false, hu]
      rw [Bool.eq_iff_iff]
      simp [mem_setAdd, hne]
  pb := by
    intro x hx
    rw [touch_keys]
    rcases (mem_setAdd _ _ _).1 hx with rfl | hx
    · exact hk
    · exact r.pb x hx
  pbnodup := setAdd_nodup _ _ r.pbnodup
  len := by simpa [Spec.touch] using r.len

theorem touch_absent (q : Spec.Queue K V) (k : K) (hk : k ∉ q.map (·.key)) :
    Spec.touch q k = q := by
  conv => rhs; rw [← List.map_id q]
  apply List.map_congr_left
  intro e he
  have : (e.key == k) = false := by
    simp only [beq_eq_false_iff_ne, ne_eq]
    rintro rfl
    exact hk (List.mem_map.2 ⟨e, he, rfl⟩)
  simp [this]

theorem set_dnodup (d : List (K × V)) (k : K) (v : V) (h : (Dict.keys d).Nodup) :
    (Dict.keys (Dict.set d k v)).Nodup := by
  cases hk : Dict.has d k with
  | true => rw [Dict.set_keys_of_has d k v hk]; exact h
  | false =>
    rw [Dict.set_of_not_has d k v hk]
    simp only [Dict.keys, List.map_append, List.map_cons, List.map_nil]
    rw [List.nodup_append]
    refine ⟨h, by simp, ?_⟩
    intro a ha b hb
    simp only [List.mem_cons, List.not_mem_nil, or_false] at hb
    subst hb
    rintro rfl
    have : (Dict.get? d a).isSome := (Dict.get?_isSome_iff d a).2 ⟨a, ha, by simp⟩
    simp [Dict.has, this] at hk

theorem lookup_append (q q' : Spec.Queue K V) (k : K) :
    Spec.lookup (q ++ q') k = (Spec.lookup q k).or (Spec.lookup q' k) := by
  simp only [Spec.lookup, List.find?_append]
  cases List.find? (fun x => x.key == k) q <;> simp

theorem lookup_reset (q : Spec.Queue K V) (k : K) :
    Spec.lookup (Spec.reset q) k = Spec.lookup q k := by
  induction q with
  | nil => rfl
  | cons a q ih =>
    simp only [Spec.lookup, Spec.reset, List.map_cons, List.find?_cons] at ih ⊢
    by_cases h2 : a.key == k <;> simp [h2] at ih ⊢; exact ih

theorem lookup_none (q : Spec.Queue K V) (k : K) (hk : k ∉ q.map (·.key)) :
    Spec.lookup q k = none := by
  cases h : Spec.lookup q k with
  | none => rfl
  | some v => exact absurd ((lookup_isSome q k).1 (by simp [h])) hk

/-- What eviction does to a full cache, in terms of the clock queue. -/
theorem evict_spec {n : Nat} {c : Cache K V} {q : Spec.Queue K V} (r : Rel n c q)
    (hfull : q.length = n) (k : K) (v : V) (hk : k ∉ q.map (·.key)) :
    ∃ e pb', Spec.makeRoom q = ((Spec.makeRoom q).1, some (e.key, e.val)) ∧ e ∈ q ∧
      evict { c with data := Dict.set c.data k v } (c.maxSize - 1) =
        ⟨{ c with
            keys := ((Spec.makeRoom q).1.map (·.key)).reverse
            putBack := pb'
            data := Dict.erase (Dict.set c.data k v) e.key }, [(e.key, e.val)], none⟩ ∧
      pb'.Nodup ∧ (∀ x ∈ pb', x ∈ (Spec.makeRoom q).1.map (·.key)) ∧
      (∀ x ∈ (Spec.makeRoom q).1, x.used = pb'.contains x.key) ∧
      (q.map (·.key)).Perm (e.key :: (Spec.makeRoom q).1.map (·.key)) ∧
      (∀ x, x ≠ e.key → Spec.lookup (Spec.makeRoom q).1 x = Spec.lookup q x) := by
  have hset : ∀ e ∈ q, Dict.get? (Dict.set c.data k v) e.key = some e.val := by
    intro e he
    rw [Dict.get?_set]
    have : (k == e.key) = false := by
      simp only [beq_eq_false_iff_ne, ne_eq]
      rintro rfl
      exact hk (List.mem_map.2 ⟨e, he, rfl⟩)
    rw [this]
    simp only [Bool.false_eq_true, if_false]
    rw [r.data]
    exact lookup_eq_some q r.nodup e he
  have hq : q = q.takeWhile (·.used) ++ q.dropWhile (·.used) :=
    (List.takeWhile_append_dropWhile).symm
  have htake : ∀ e ∈ q.takeWhile (·.used), e.used = true := by
    intro e he
    exact of_mem_takeWhile (fun e : Spec.Entry K V => e.used) q e he
  have hfuel : (c.maxSize + 1).toNat = n + 1 := by rw [r.size]; omega
  unfold Spec.makeRoom
  cases hd : q.dropWhile (·.used) with
  | cons e rest =>
    simp only
    have he : e.used = false := by
      have := List.head?_dropWhile_not (·.used) q
      simp [hd] at this
      exact this
    generalize hT : q.takeWhile (·.used) = T at *
    rw [hd] at hq
    have hmem : e ∈ q := by rw [hq]; simp
    have hnd := r.nodup
    rw [hq, List.map_append, List.map_cons] at hnd
    have hTpb : ∀ x ∈ T.map (·.key), x ∈ c.putBack := by
      intro x hx
      obtain ⟨t, ht, rfl⟩ := List.mem_map.1 hx
      have := r.used t (by rw [hq]; simp [ht])
      rw [htake t ht] at this
      simpa using this.symm
    have heu : e.key ∉ c.putBack := by
      have := r.used e hmem
      rw [he] at this
      simpa using this.symm
    have hlen : T.length + rest.length + 1 = n := by
      rw [← hfull, hq]; simp; omega
    refine ⟨e, (T.map (·.key)).foldl List.erase c.putBack, rfl, hmem, ?_, ?_, ?_, ?_, ?_, ?_⟩
    · unfold evict
      simp only [hfuel]
      have e1 : n + 1 = (T.map (·.key)).length + (rest.length + 1 + 1) := by simp; omega
      rw [e1, evictLoop_rotate (c.maxSize - 1) (T.map (·.key)) (e.key :: rest.map (·.key))]
      · rw [evictLoop_pop (u := e.key) (R := (rest ++ T).map (·.key)) (v := e.val)]
        · simp [Spec.reset, Function.comp_def]
        · simp
        · intro hc
          exact heu (((mem_erases _ _ r.pbnodup _).1 hc).1)
        · exact hset e hmem
        · simp [r.size]; omega
        · simp [r.size]; omega
      · show c.keys.reverse = _
        rw [r.keys]
        conv => lhs; rw [hq]
        simp
      · exact (List.nodup_append.1 hnd).1
      · exact hTpb
      · simp [r.size]; omega
    · exact erases_nodup _ _ r.pbnodup
    · intro x hx
      have ⟨h1, h2⟩ := (mem_erases _ _ r.pbnodup _).1 hx
      have := r.pb x h1
      rw [hq] at this
      simp only [List.map_append, List.map_cons, List.mem_append, List.mem_cons] at this ⊢
      rcases this with h | rfl | h
      · exact absurd h h2
      · exact absurd h1 heu
      · exact .inl h
    · intro x hx
      rcases List.mem_append.1 hx with hx | hx
      · have hxq : x ∈ q := by rw [hq]; simp [hx]
        rw [r.used x hxq, Bool.eq_iff_iff]
        simp only [List.contains_iff_mem, mem_erases _ _ r.pbnodup]
        constructor
        · intro h
          refine ⟨h, ?_⟩
          intro hc
          have := (List.nodup_append.1 hnd).2.2 _ hc x.key
            (List.mem_cons_of_mem _ (List.mem_map.2 ⟨x, hx, rfl⟩))
          exact this rfl
        · exact And.left
      · simp only [Spec.reset, List.mem_map] at hx
        obtain ⟨t, ht, rfl⟩ := hx
        symm
        simp only [Bool.eq_false_iff, ne_eq, List.contains_iff_mem, mem_erases _ _ r.pbnodup]
        rintro ⟨_, h2⟩
        exact h2 (List.mem_map.2 ⟨t, ht, rfl⟩)
    · conv => lhs; rw [hq]
      simp only [List.map_append, List.map_cons, Spec.reset, List.map_map, Function.comp_def]
      exact List.perm_middle.trans ((List.perm_append_comm).cons _)
    · intro x hx
      rw [lookup_append, lookup_reset]
      conv => rhs; rw [hq]
      have hex : (e.key == x) = false := by
        simp only [beq_eq_false_iff_ne, ne_eq]
        exact fun h => hx h.symm
      have hl : Spec.lookup (e :: rest) x = Spec.lookup rest x := by
        simp [Spec.lookup, hex]
      rw [lookup_append, hl]
      cases h1 : Spec.lookup rest x with
      | none => cases Spec.lookup T x <;> rfl
      | some a =>
        have m1 := (lookup_isSome rest x).1 (by simp [h1])
        have : x ∉ T.map (·.key) := by
          intro hc
          exact (List.nodup_append.1 hnd).2.2 _ hc x (List.mem_cons_of_mem _ m1) rfl
        rw [lookup_none _ _ this]
        rfl
  | nil =>
    have hall : ∀ e ∈ q, e.used = true := by
      intro e he
      rw [hd, List.append_nil] at hq
      rw [hq] at he
      exact htake e he
    cases q with
    | nil => have := r.pos; simp at hfull; omega
    | cons e rest =>
      simp only
      have hnd := r.nodup
      have hpb : ∀ x ∈ (e :: rest).map (·.key), x ∈ c.putBack := by
        intro x hx
        obtain ⟨t, ht, rfl⟩ := List.mem_map.1 hx
        have := r.used t ht
        rw [hall t ht] at this
        simpa using this.symm
      have hempty : ∀ x, x ∉ ((e :: rest).map (·.key)).foldl List.erase c.putBack := by
        intro x hx
        have ⟨h1, h2⟩ := (mem_erases _ _ r.pbnodup _).1 hx
        exact h2 (r.pb x h1)
      have hlen : rest.length + 1 = n := by simpa using hfull
      refine ⟨e, ((e :: rest).map (·.key)).foldl List.erase c.putBack, rfl, by simp,
        ?_, ?_, ?_, ?_, ?_, ?_⟩
      · unfold evict
        simp only [hfuel]
        have e1 : n + 1 = ((e :: rest).map (·.key)).length + (0 + 1) := by simp; omega
        rw [e1, evictLoop_rotate (c.maxSize - 1) ((e :: rest).map (·.key)) []]
        · rw [evictLoop_pop (u := e.key) (R := rest.map (·.key)) (v := e.val)]
          · simp [Spec.reset, Function.comp_def]
          · simp
          · exact hempty _
          · exact hset e (by simp)
          · simp [r.size]; omega
          · simp [r.size]; omega
        · show c.keys.reverse = _
          rw [r.keys]; simp
        · exact hnd
        · exact hpb
        · simp [r.size]; omega
      · exact erases_nodup _ _ r.pbnodup
      · intro x hx; exact absurd hx (hempty x)
      · intro x hx
        simp only [Spec.reset, List.mem_map] at hx
        obtain ⟨t, ht, rfl⟩ := hx
        symm
        simp only [Bool.eq_false_iff, ne_eq, List.contains_iff_mem]
        exact hempty _
      · simp [Spec.reset, Function.comp_def]
      · intro x hx
        rw [lookup_reset]
        have hex : (e.key == x) = false := by
          simp only [beq_eq_false_iff_ne, ne_eq]
          exact fun h => hx h.symm
        simp [Spec.lookup, hex]

/-- One call: implementation and clock stay related and return the same observation. -/
theorem step_rel {n : Nat} {c : Cache K V} {q : Spec.Queue K V} (r : Rel n c q) (op : Op K V) :
    Rel n (step c op).1 (Spec.step n q op).1 ∧ (step c op).2 = (Spec.step n q op).2 := by
  cases op with
  | get k =>
    simp only [step, get, Spec.step, r.data k]
    cases h : Spec.lookup q k with
    | some v =>
      exact ⟨rel_touch r k ((lookup_isSome q k).1 (by simp [h])), rfl⟩
    | none =>
      have hk : k ∉ q.map (·.key) := by
        intro hc; have := (lookup_isSome q k).2 hc; simp [h] at this
      rw [touch_absent q k hk]
      exact ⟨r, rfl⟩
  | has k b =>
    simp only [step, hasKey, Spec.step, Dict.has, r.data k]
    cases h : Spec.lookup q k with
    | some v =>
      cases b with
      | true => exact ⟨rel_touch r k ((lookup_isSome q k).1 (by simp [h])), rfl⟩
      | false => exact ⟨r, rfl⟩
    | none =>
      have hk : k ∉ q.map (·.key) := by
        intro hc; have := (lookup_isSome q k).2 hc; simp [h] at this
      refine ⟨?_, rfl⟩
      cases b with
      | true => simp only [if_true]; rw [touch_absent q k hk]; exact r
      | false => exact r
  | set k v =>
    have hh : Dict.has c.data k = (Spec.lookup q k).isSome := by rw [Dict.has, r.data]
    by_cases hp : (Spec.lookup q k).isSome
    · have hk := (lookup_isSome q k).1 hp
      simp only [step, set, Spec.step, hh, hp, if_true]
      refine ⟨⟨r.size, r.pos, ?_, ?_, set_dnodup _ _ _ r.dnodup, ?_, ?_, ?_, ?_, ?_⟩, trivial⟩
      · rw [overwrite_keys]; exact r.keys
      · rw [overwrite_keys]; exact r.nodup
      · intro x
        rw [overwrite_lookup q k x v hk, Dict.get?_set, r.data]
      · intro e he
        simp only [Spec.overwrite, List.mem_map] at he
        obtain ⟨e', he', rfl⟩ := he
        have hu := r.used e' he'
        by_cases h : e'.key == k
        · have := eq_of_beq h
          simp [this, mem_setAdd]
        · have hne : e'.key ≠ k := by simpa using h
          simp only [h, Bool.false_eq_true, if_false, hu]
          rw [Bool.eq_iff_iff]
          simp [mem_setAdd, hne]
      · intro x hx
        rw [overwrite_keys]
        rcases (mem_setAdd _ _ _).1 hx with rfl | hx
        · exact hk
        · exact r.pb x hx
      · exact setAdd_nodup _ _ r.pbnodup
      · simpa [Spec.overwrite] using r.len
    · have hk : k ∉ q.map (·.key) := fun hc => hp ((lookup_isSome q k).2 hc)
      have hp' : (Spec.lookup q k).isSome = false := by simpa using hp
      have hkl : c.keys.length = q.length := by
        have := congrArg List.length r.keys; simpa using this
      by_cases hfull : q.length < n
      · have hcond : ¬ ((c.keys.length : Int) > c.maxSize - 1) := by rw [r.size, hkl]; omega
        simp only [step, set, Spec.step, hh, hp', Bool.false_eq_true, if_false, hcond, hfull,
          if_true]
        refine ⟨⟨r.size, r.pos, ?_, ?_, set_dnodup _ _ _ r.dnodup, ?_, ?_, ?_, r.pbnodup, ?_⟩, trivial⟩
        · simp [r.keys]
        · simp only [List.map_append, List.map_cons, List.map_nil, List.nodup_append]
          refine ⟨r.nodup, by simp, ?_⟩
          intro a ha b hb
          simp at hb; subst hb
          rintro rfl; exact hk ha
        · intro x
          rw [Dict.get?_set, lookup_append, r.data]
          by_cases hx : k == x
          · have := eq_of_beq hx; subst this
            rw [lookup_none q k hk]
            simp [Spec.lookup]
          · have hx' : (k == x) = false := by simpa using hx
            simp [Spec.lookup, hx']
        · intro e he
          rcases List.mem_append.1 he with he | he
          · exact r.used e he
          · simp at he; subst he
            symm
            simp only [Bool.eq_false_iff, ne_eq, List.contains_iff_mem]
            exact fun hc => hk (r.pb k hc)
        · intro x hx
          simp only [List.map_append, List.mem_append]
          exact .inl (r.pb x hx)
        · simp; omega
      · have hfl : q.length = n := by have := r.len; omega
        have hcond : (c.keys.length : Int) > c.maxSize - 1 := by rw [r.size, hkl]; omega
        obtain ⟨e, pb', h1, hmem, h2, h3, h4, h5, h6, h7⟩ := evict_spec r hfl k v hk
        have hek : k ≠ e.key := by
          rintro rfl; exact hk (List.mem_map.2 ⟨e, hmem, rfl⟩)
        have hnd := h6.nodup_iff.1 r.nodup
        have hkr : k ∉ (Spec.makeRoom q).1.map (·.key) := by
          intro hc
          exact hk (h6.mem_iff.2 (List.mem_cons_of_mem _ hc))
        simp only [step, set, Spec.step, hh, hp', Bool.false_eq_true, if_false, hcond, hfull,
          if_true, h2]
        rw [h1]
        refine ⟨⟨r.size, r.pos, ?_, ?_, ?_, ?_, ?_, ?_, h3, ?_⟩, rfl⟩
        · simp
        · simp only [List.map_append, List.map_cons, List.map_nil, List.nodup_append]
          refine ⟨(List.nodup_cons.1 hnd).2, by simp, ?_⟩
          intro a ha b hb
          simp at hb; subst hb
          rintro rfl; exact hkr ha
        · simp only
          rw [Dict.erase_keys]
          exact (set_dnodup _ _ _ r.dnodup).erase _
        · intro x
          simp only
          rw [Dict.get?_erase _ _ _ (set_dnodup _ _ _ r.dnodup), Dict.get?_set, lookup_append,
            r.data]
          by_cases hx : e.key == x
          · have := eq_of_beq hx; subst this
            have : e.key ∉ (Spec.makeRoom q).1.map (·.key) := (List.nodup_cons.1 hnd).1
            rw [lookup_none _ _ this]
            simp [Spec.lookup, hek]
          · have hx' : (e.key == x) = false := by simpa using hx
            have hxe : x ≠ e.key := by
              rintro rfl; simp at hx'
            rw [hx', h7 x hxe]
            simp only [Bool.false_eq_true, if_false]
            by_cases hkx : k == x
            · have := eq_of_beq hkx; subst this
              rw [lookup_none _ _ hk]
              simp [Spec.lookup]
            · have hkx' : (k == x) = false := by simpa using hkx
              simp [Spec.lookup, hkx']
        · intro x hx
          simp only at hx ⊢
          rcases List.mem_append.1 hx with hx | hx
          · exact h5 x hx
          · simp at hx; subst hx
            symm
            simp only [Bool.eq_false_iff, ne_eq, List.contains_iff_mem]
            exact fun hc => hkr (h4 k hc)
        · intro x hx
          simp only [List.map_append, List.mem_append]
          exact .inl (h4 x hx)
        · have := h6.length_eq
          simp at this ⊢
          omega

/-- How the lookup function of the clock queue changes in one call. -/
theorem spec_lookup_step {n : Nat} {c : Cache K V} {q : Spec.Queue K V} (r : Rel n c q)
    (op : Op K V) (x : K) :
    Spec.lookup (Spec.step n q op).1 x =
      match op, (Spec.step n q op).2 with
      | .set k v, .setDone ev =>
        if (ev.map Prod.fst).contains x then none
        else if k == x then some v else Spec.lookup q x
      | _, _ => Spec.lookup q x := by
  cases op with
  | get k => simp [Spec.step, touch_lookup]
  | has k b => cases b <;> simp [Spec.step, touch_lookup]
  | set k v =>
    by_cases hp : (Spec.lookup q k).isSome
    · have hk := (lookup_isSome q k).1 hp
      simp [Spec.step, hp, overwrite_lookup q k x v hk]
    · have hk : k ∉ q.map (·.key) := fun hc => hp ((lookup_isSome q k).2 hc)
      have hp' : (Spec.lookup q k).isSome = false := by simpa using hp
      have key : ∀ q' : Spec.Queue K V, k ∉ q'.map (·.key) →
          Spec.lookup (q' ++ [⟨k, v, false⟩]) x = if k == x then some v else Spec.lookup q' x := by
        intro q' hq'
        rw [lookup_append]
        by_cases hkx : k == x
        · have := eq_of_beq hkx; subst this
          rw [lookup_none _ _ hq']
          simp [Spec.lookup]
        · have hkx' : (k == x) = false := by simpa using hkx
          simp [Spec.lookup, hkx']
      by_cases hfull : q.length < n
      · simp [Spec.step, hp', hfull, key q hk]
      · have hfl : q.length = n := by have := r.len; omega
        obtain ⟨e, pb', h1, hmem, h2, h3, h4, h5, h6, h7⟩ := evict_spec r hfl k v hk
        have hnd := h6.nodup_iff.1 r.nodup
        have hkr : k ∉ (Spec.makeRoom q).1.map (·.key) := by
          intro hc
          exact hk (h6.mem_iff.2 (List.mem_cons_of_mem _ hc))
        have hek : k ≠ e.key := by
          rintro rfl; exact hk (List.mem_map.2 ⟨e, hmem, rfl⟩)
        simp only [Spec.step, hp', hfull, Bool.false_eq_true, if_false]
        rw [h1]
        simp only [key _ hkr, Option.toList, List.map_cons, List.map_nil]
        by_cases hx : x = e.key
        · subst hx
          have : e.key ∉ (Spec.makeRoom q).1.map (·.key) := (List.nodup_cons.1 hnd).1
          rw [lookup_none _ _ this]
          simp [hek]
        · rw [h7 x hx]
          simp [hx]

theorem evicted_value {n : Nat} {c : Cache K V} {q : Spec.Queue K V} (r : Rel n c q)
    (op : Op K V) (ev : List (K × V)) (h : (Spec.step n q op).2 = .setDone ev) (p : K × V)
    (hp : p ∈ ev) : Spec.lookup q p.1 = some p.2 := by
  cases op with
  | get k => simp [Spec.step] at h
  | has k b => simp [Spec.step] at h
  | set k v =>
    by_cases h1 : (Spec.lookup q k).isSome
    · simp [Spec.step, h1] at h; subst h; simp at hp
    · have hk : k ∉ q.map (·.key) := fun hc => h1 ((lookup_isSome q k).2 hc)
      by_cases hfull : q.length < n
      · simp [Spec.step, h1, hfull] at h; subst h; simp at hp
      · have hfl : q.length = n := by have := r.len; omega
        obtain ⟨e, pb', h1', hmem, _⟩ := evict_spec r hfl k v hk
        simp only [Spec.step, h1, hfull, Bool.false_eq_true, if_false] at h
        rw [h1'] at h
        simp only [Option.toList, Obs.setDone.injEq] at h
        subst h
        simp at hp; subst hp
        exact lookup_eq_some q r.nodup e hmem

theorem rel_init (n : Nat) (h : 1 ≤ n) : Rel n (init n : Cache K V) [] where
  size := rfl
  pos := h
  keys := rfl
  nodup := by simp
  dnodup := by simp [init, Dict.keys]
  data := by intro k; rfl
  used := by simp
  pb := by simp [init]
  pbnodup := by simp [init]
  len := by simp

theorem run_rel {n : Nat} (ops : List (Op K V)) : ∀ {c : Cache K V} {q : Spec.Queue K V},
    Rel n c q →
    Rel n (run c ops).1 (Spec.run n q ops).1 ∧ (run c ops).2 = (Spec.run n q ops).2 := by
  induction ops with
  | nil => intro c q r; exact ⟨r, rfl⟩
  | cons op ops ih =>
    intro c q r
    have ⟨h1, h2⟩ := step_rel r op
    have ⟨h3, h4⟩ := ih h1
    simp only [run, Spec.run]
    exact ⟨h3, by rw [h2, h4]⟩

theorem rel_data_length {n : Nat} {c : Cache K V} {q : Spec.Queue K V} (r : Rel n c q) :
    c.data.length ≤ n := by
  have hsub : ∀ x ∈ Dict.keys c.data, x ∈ q.map (·.key) := by
    intro x hx
    have : (Dict.get? c.data x).isSome := (Dict.get?_isSome_iff _ _).2 ⟨x, hx, by simp⟩
    rw [r.data] at this
    exact (lookup_isSome q x).1 this
  have h1 : (Dict.keys c.data).length ≤ (q.map (·.key)).length :=
    r.dnodup.length_le_of_subset hsub
  have := r.len
  simp [Dict.keys] at h1
  omega

end Verif.RUCache
