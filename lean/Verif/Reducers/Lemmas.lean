import Verif.Reducers.Spec
import Verif.Agg.Group
import Mathlib.Tactic.Tauto
import Mathlib.Data.List.Induction

/-! # Folding reducers over lists of values -/

set_option autoImplicit false

namespace Verif.Reducers

open Verif

variable {R V E : Type}

/-- A reducer folded over evaluated arguments. -/
def foldPairs (rd : Reducer V E) :
    Option (Slot V) → List (Except E V × Except E V) → Except E (Option (Slot V))
  | s, [] => .ok s
  | none, z :: zs =>
    match rd.first none z.1 z.2 with
    | .ok s => foldPairs rd s zs
    | .error e => .error e
  | some s, z :: zs =>
    match rd.reduce (some s) (some s) z.1 z.2 with
    | .ok s => foldPairs rd s zs
    | .error e => .error e

theorem foldRows_redOf (rd : Reducer V E) (h : String) (c : Option String) (x y : R → Except E V)
    (rows : List R) (s : Option (Slot V)) :
    Agg.foldRows (redOf rd h c none x y) s rows =
      foldPairs rd s (rows.map (fun r => (x r, y r))) := by
  induction rows generalizing s with
  | nil => cases s <;> rfl
  | cons r rows ih =>
    cases s with
    | none =>
      simp only [Agg.foldRows, redOf, List.map_cons, foldPairs]
      split <;> rename_i heq <;> simp only [heq]
      exact ih _
    | some v =>
      simp only [Agg.foldRows, redOf, List.map_cons, foldPairs]
      split <;> rename_i heq <;> simp only [heq]
      exact ih _

theorem foldPairs_append (rd : Reducer V E) (zs zs' : List (Except E V × Except E V))
    (s : Option (Slot V)) :
    foldPairs rd s (zs ++ zs') =
      match foldPairs rd s zs with
      | .ok s' => foldPairs rd s' zs'
      | .error e => .error e := by
  induction zs generalizing s with
  | nil => cases s <;> rfl
  | cons z zs ih =>
    cases s with
    | none =>
      simp only [List.cons_append, foldPairs]
      split
      · exact ih _
      · rfl
    | some v =>
      simp only [List.cons_append, foldPairs]
      split
      · exact ih _
      · rfl

/-- Evaluated pairs. -/
def okPairs (ps : List (V × V)) : List (Except E V × Except E V) :=
  ps.map (fun p => (.ok p.1, .ok p.2))

/-- The reducer does not look at its second argument. -/
def OneArg (rd : Reducer V E) : Prop :=
  (∀ r a x y y', rd.reduce r a x y = rd.reduce r a x y') ∧
  ∀ r x y y', rd.first r x y = rd.first r x y'

theorem foldPairs_oneArg (rd : Reducer V E) (h : OneArg rd) (vs : List V) :
    ∀ (zs : List (Except E V × Except E V)) (s : Option (Slot V)),
    zs.map Prod.fst = vs.map .ok →
      foldPairs rd s zs = foldPairs rd s (okPairs (vs.map (fun v => (v, v)))) := by
  induction vs with
  | nil => intro zs s hz; cases zs with
    | nil => rfl
    | cons z zs => simp at hz
  | cons v vs ih =>
    intro zs s hz
    cases zs with
    | nil => simp at hz
    | cons z zs =>
      obtain ⟨zx, zy⟩ := z
      simp only [List.map_cons, List.cons.injEq] at hz
      obtain ⟨hz1, hz2⟩ := hz
      subst hz1
      cases s with
      | none =>
        simp only [foldPairs, okPairs, List.map_cons]
        rw [h.2 none (.ok v) zy (.ok v)]
        split
        · exact ih _ _ hz2
        · rfl
      | some s =>
        simp only [foldPairs, okPairs, List.map_cons]
        rw [h.1 (some s) (some s) (.ok v) zy (.ok v)]
        split
        · exact ih _ _ hz2
        · rfl

/-- The outcome of a reducer of one argument. -/
theorem outcome_one (condSem : String → R → Except E Bool) (rd : Reducer V E) (hr : OneArg rd)
    (default : Option (Slot V)) (hash : String) (cond : Option String) (x y : R → Except E V)
    (rows : List R) (vs : List V) (h : Reach condSem cond rows x vs) :
    outcome condSem rd default hash cond none x y rows =
      match foldPairs rd none (okPairs (vs.map (fun v => (v, v)))) with
      | .ok slot => resultOf rd default slot
      | .error e => .error e := by
  obtain ⟨kept, h1, h2⟩ := h
  have h1' : Agg.passing condSem (redOf rd hash cond none x y).cond rows = .ok kept := h1
  simp only [outcome, Agg.alone, h1']
  rw [foldRows_redOf, foldPairs_oneArg rd hr vs _ _ (by rw [List.map_map]; exact h2)]
  rfl

/-- The outcome of a reducer of two arguments. -/
theorem outcome_two (condSem : String → R → Except E Bool) (rd : Reducer V E)
    (default : Option (Slot V)) (hash : String) (cond : Option String) (x y : R → Except E V)
    (rows : List R) (ps : List (V × V)) (h : Reach2 condSem cond rows x y ps) :
    outcome condSem rd default hash cond none x y rows =
      match foldPairs rd none (okPairs ps) with
      | .ok slot => resultOf rd default slot
      | .error e => .error e := by
  obtain ⟨kept, h1, h2⟩ := h
  have h1' : Agg.passing condSem (redOf rd hash cond none x y).cond rows = .ok kept := h1
  simp only [outcome, Agg.alone, h1']
  rw [foldRows_redOf, h2]
  rfl

/-- A slot after folding a reducer that always holds `g values` after at least one value. -/
def accum {A : Type} (g : List A → Slot V) : List A → Option (Slot V)
  | [] => none
  | a :: as => some (g (a :: as))

theorem accum_snoc {A : Type} (g : List A → Slot V) (as : List A) (a : A) :
    accum g (as ++ [a]) = some (g (as ++ [a])) := by
  cases as <;> rfl

/-- Reducers described by a function of the list so far. -/
theorem foldPairs_accum (rd : Reducer V E) (P : V × V → Prop) (g : List (V × V) → Slot V)
    (h1 : ∀ p, P p → rd.first none (.ok p.1) (.ok p.2) = .ok (some (g [p])))
    (h2 : ∀ ps p, ps ≠ [] → P p → (∀ q ∈ ps, P q) →
      rd.reduce (some (g ps)) (some (g ps)) (.ok p.1) (.ok p.2) = .ok (some (g (ps ++ [p]))))
    (ps : List (V × V)) (hp : ∀ p ∈ ps, P p) :
    foldPairs rd none (okPairs ps) = .ok (accum g ps) := by
  induction ps using List.reverseRecOn with
  | nil => rfl
  | append_singleton ps p ih =>
    have ih := ih (fun q hq => hp q (by simp [hq]))
    have hpp := hp p (by simp)
    simp only [okPairs, List.map_append, List.map_cons, List.map_nil] at ih ⊢
    rw [foldPairs_append, ih]
    cases ps with
    | nil =>
      simp only [accum, foldPairs, h1 p hpp, List.nil_append]
    | cons q ps =>
      simp only [accum, foldPairs, List.cons_append]
      rw [h2 (q :: ps) p (by simp) hpp (fun r hr => hp r (by simp at hr ⊢; tauto))]
      rfl

/-- Pairs that change nothing can be left out. -/
theorem foldPairs_skip (rd : Reducer V E) (skip : V × V → Bool)
    (h1 : ∀ p, skip p = true → rd.first none (.ok p.1) (.ok p.2) = .ok none)
    (h2 : ∀ p s, skip p = true →
      rd.reduce (some s) (some s) (.ok p.1) (.ok p.2) = .ok (some s))
    (ps : List (V × V)) (s : Option (Slot V)) :
    foldPairs rd s (okPairs ps) = foldPairs rd s (okPairs (ps.filter (fun p => !skip p))) := by
  induction ps generalizing s with
  | nil => rfl
  | cons p ps ih =>
    by_cases hs : skip p = true
    · rw [List.filter_cons_of_neg (by simp [hs]), ← ih]
      cases s with
      | none => simp only [okPairs, List.map_cons, foldPairs, h1 p hs]
      | some s => simp only [okPairs, List.map_cons, foldPairs, h2 p s hs]
    · rw [List.filter_cons_of_pos (by simp [hs])]
      cases s with
      | none =>
        simp only [okPairs, List.map_cons, foldPairs] at ih ⊢
        split
        · exact ih _
        · rfl
      | some s =>
        simp only [okPairs, List.map_cons, foldPairs] at ih ⊢
        split
        · exact ih _
        · rfl

/-! ## Dicts per key -/

theorem valuesAt_snoc [BEq V] (ps : List (V × V)) (p : V × V) (k : V) :
    valuesAt k (ps ++ [p]) = if p.1 == k then valuesAt k ps ++ [p.2] else valuesAt k ps := by
  unfold valuesAt
  rw [List.filter_append]
  by_cases h : p.1 == k <;> simp [h]

theorem valuesAt_congr [BEq V] [EquivBEq V] (ps : List (V × V)) (k k' : V) (h : (k == k') = true) :
    valuesAt k ps = valuesAt k' ps := by
  unfold valuesAt
  congr 1
  apply List.filter_congr
  intro p _
  exact BEq.congr_right h

theorem get?_map_keys {S : Type} [BEq V] [EquivBEq V] (ks : List V) (f : V → S)
    (hf : ∀ a b, (a == b) = true → f a = f b) (k : V) :
    Dict.get? (ks.map (fun a => (a, f a))) k = if ks.any (· == k) then some (f k) else none := by
  induction ks with
  | nil => rfl
  | cons a ks ih =>
    simp only [List.map_cons, Dict.get?, List.any_cons]
    by_cases h : a == k
    · simp [h, hf a k h]
    · simp [h, ih]

theorem get?_perKey {S : Type} [BEq V] [EquivBEq V] (ps : List (V × V)) (f : List V → S) (k : V) :
    Dict.get? (perKey ps f) k =
      if (ps.map Prod.fst).any (· == k) then some (f (valuesAt k ps)) else none := by
  unfold perKey
  rw [get?_map_keys _ (fun k => f (valuesAt k ps))
    (fun a b h => by simp only [valuesAt_congr ps a b h])]
  rw [Agg.any_firstSeen]

theorem set_map_keys {S : Type} [BEq V] [EquivBEq V] (ks : List V) (f g : V → S) (k : V) (s : S)
    (hp : ks.Pairwise (fun a b => (a == b) = false))
    (hk : ks.any (· == k) = true)
    (hg : ∀ a, (a == k) = true → g a = s) (hn : ∀ a, (a == k) = false → g a = f a) :
    Dict.set (ks.map (fun a => (a, f a))) k s = ks.map (fun a => (a, g a)) := by
  induction ks with
  | nil => simp at hk
  | cons a ks ih =>
    rw [List.pairwise_cons] at hp
    simp only [List.map_cons, Dict.set]
    by_cases h : a == k
    · simp only [h, if_true, hg a h]
      congr 1
      apply List.map_congr_left
      intro b hb
      have : (b == k) = false := by
        cases hbk : b == k with
        | false => rfl
        | true =>
          have := hp.1 b hb
          rw [BEq.trans h (BEq.symm hbk)] at this
          exact absurd this (by simp)
      simp [hn b this]
    · have h' : (a == k) = false := by simpa using h
      simp only [h', Bool.false_eq_true, if_false, hn a h']
      congr 1
      refine ih hp.2 ?_
      simpa [h'] using hk

theorem perKey_snoc {S : Type} [BEq V] [EquivBEq V] (ps : List (V × V)) (f : List V → S) (k v : V) :
    perKey (ps ++ [(k, v)]) f = Dict.set (perKey ps f) k (f (valuesAt k ps ++ [v])) := by
  unfold perKey
  rw [List.map_append, List.map_cons, List.map_nil, Agg.firstSeen_snoc]
  by_cases h : (ps.map Prod.fst).any (· == k) = true
  · rw [if_pos h]
    symm
    apply set_map_keys
    · exact Agg.firstSeen_pairwise _
    · rw [Agg.any_firstSeen]; exact h
    · intro a ha
      rw [valuesAt_snoc]
      simp only [BEq.symm ha, if_true, valuesAt_congr ps a k ha]
    · intro a ha
      rw [valuesAt_snoc]
      have : (k == a) = false := by rw [BEq.comm]; exact ha
      simp [this]
  · have h' : (ps.map Prod.fst).any (· == k) = false := by simpa using h
    rw [if_neg h, Dict.set_of_not_has, List.map_append]
    · congr 1
      · apply List.map_congr_left
        intro a ha
        rw [valuesAt_snoc]
        have : (k == a) = false := by
          cases hka : k == a with
          | false => rfl
          | true =>
            have : (Agg.firstSeen (ps.map Prod.fst)).any (· == k) = true :=
              List.any_eq_true.2 ⟨a, ha, BEq.symm hka⟩
            rw [Agg.any_firstSeen, h'] at this
            exact absurd this (by simp)
        simp [this]
      · simp [valuesAt_snoc]
    · have := get?_perKey ps f k
      rw [h'] at this
      unfold perKey at this
      simp [Dict.has, this]

/-- Dict reducers: a step per key gives a dict per key. -/
theorem foldPairs_keyed {S : Type} [BEq V] [EquivBEq V] (rd : Reducer V E) (P : V × V → Prop)
    (emb : List (V × S) → Slot V) (f : List V → S)
    (h1 : ∀ k v, P (k, v) → rd.first none (.ok k) (.ok v) = .ok (some (emb [(k, f [v])])))
    (h2 : ∀ d k v, P (k, v) → Dict.get? d k = none →
      rd.reduce (some (emb d)) (some (emb d)) (.ok k) (.ok v) =
        .ok (some (emb (Dict.set d k (f [v])))))
    (h3 : ∀ d k v vs, P (k, v) → vs ≠ [] → (∀ w ∈ vs, ∃ k', P (k', w)) →
      Dict.get? d k = some (f vs) →
      rd.reduce (some (emb d)) (some (emb d)) (.ok k) (.ok v) =
        .ok (some (emb (Dict.set d k (f (vs ++ [v]))))))
    (ps : List (V × V)) (hp : ∀ p ∈ ps, P p) :
    foldPairs rd none (okPairs ps) = .ok (accum (fun ps => emb (perKey ps f)) ps) := by
  apply foldPairs_accum rd P _ _ _ ps hp
  · rintro ⟨k, v⟩ hpk
    simp [h1 k v hpk, perKey, Agg.firstSeen, valuesAt]
  · rintro ps ⟨k, v⟩ hne hpk hps
    show rd.reduce (some (emb (perKey ps f))) (some (emb (perKey ps f))) _ _ = _
    have hg := get?_perKey ps f k
    simp only [perKey_snoc]
    by_cases h : (ps.map Prod.fst).any (· == k) = true
    · rw [if_pos h] at hg
      refine h3 _ k v (valuesAt k ps) hpk ?_ ?_ hg
      · obtain ⟨a, ha, hak⟩ := List.any_eq_true.1 h
        obtain ⟨q, hq, rfl⟩ := List.mem_map.1 ha
        intro hnil
        have : q.2 ∈ valuesAt k ps :=
          List.mem_map.2 ⟨q, List.mem_filter.2 ⟨hq, hak⟩, rfl⟩
        rw [hnil] at this
        simp at this
      · intro w hw
        obtain ⟨q, hq, rfl⟩ := List.mem_map.1 hw
        exact ⟨q.1, hps q (List.mem_filter.1 hq).1⟩
    · rw [if_neg h] at hg
      have hv : valuesAt k ps = [] := by
        unfold valuesAt
        rw [List.map_eq_nil_iff, List.filter_eq_nil_iff]
        intro q hq hqk
        exact h (List.any_eq_true.2 ⟨q.1, List.mem_map.2 ⟨q, hq, rfl⟩, hqk⟩)
      rw [hv]
      exact h2 _ k v hpk hg

/-! ## Distinct values -/

theorem set_keys [BEq V] {W : Type} (u : W) (l : List V) (k : V) :
    Dict.set (l.map (fun k => (k, u))) k u = (insertKey l k).map (fun k => (k, u)) := by
  induction l with
  | nil => rfl
  | cons a l ih =>
    simp only [List.map_cons, Dict.set, ih, insertKey, List.any_cons]
    by_cases ha : (a == k) = true
    · simp [ha]
    · simp only [Bool.not_eq_true] at ha
      simp only [ha, Bool.false_eq_true, if_false, Bool.false_or]
      split <;> simp

theorem insertKey_firstSeen [BEq V] [EquivBEq V] (vs : List V) (v : V) :
    insertKey (Agg.firstSeen vs) v = Agg.firstSeen (vs ++ [v]) := by
  rw [Agg.firstSeen_snoc, insertKey, Agg.any_firstSeen]

/-! ## Best of a list -/

/-- Keeping the best so far. -/
def pick {A : Type} (better : A → A → Bool) : A → List A → A
  | m, [] => m
  | m, a :: as => pick better (if better a m then a else m) as

theorem pick_snoc {A : Type} (better : A → A → Bool) (m : A) (as : List A) (a : A) :
    pick better m (as ++ [a]) =
      if better a (pick better m as) then a else pick better m as := by
  induction as generalizing m with
  | nil => rfl
  | cons b as ih =>
    simp only [List.cons_append, pick, ih]
    rfl

theorem pick_mem {A : Type} (better : A → A → Bool) (m : A) (as : List A) :
    pick better m as ∈ m :: as := by
  induction as generalizing m with
  | nil => simp [pick]
  | cons b as ih =>
    simp only [pick]
    have := ih (if better b m then b else m)
    split at this <;> rename_i h <;> simp only [h, Bool.false_eq_true, if_true, if_false] <;>
      simp at this ⊢ <;> tauto

theorem pick_best {A : Type} (better : A → A → Bool) (P : A → Prop)
    (trans : ∀ a b c, P a → P b → P c → better a b = true → better b c = true → better a c = true)
    (weak : ∀ a b c, P a → P b → P c → better a b = true →
      better a c = true ∨ better c b = true)
    (as : List A) (m : A) (hp : ∀ a ∈ m :: as, P a) :
    FirstBest (fun a b => better a b = true) (m :: as) (pick better m as) := by
  induction as using List.reverseRecOn with
  | nil => exact ⟨[], [], rfl, by simp, by simp⟩
  | append_singleton as a ih =>
    have hp' : ∀ b ∈ m :: as, P b := fun b hb => hp b (by simp at hb ⊢; tauto)
    obtain ⟨pre, post, h1, h2, h3⟩ := ih hp'
    have hq : P (pick better m as) := hp' _ (pick_mem better m as)
    rw [pick_snoc]
    by_cases hb : better a (pick better m as) = true
    · rw [if_pos hb]
      refine ⟨m :: as, [], by simp, ?_, by simp⟩
      intro b hbm
      have hPb := hp' b hbm
      have hPa : P a := hp a (by simp)
      rw [h1] at hbm
      rcases List.mem_append.1 hbm with h | h
      · exact trans _ _ _ hPa hq hPb hb (h2 b h)
      · rcases List.mem_cons.1 h with rfl | h
        · exact hb
        · rcases weak _ _ b hPa hq hPb hb with h' | h'
          · exact h'
          · exact absurd h' (h3 b h)
    · rw [if_neg hb]
      refine ⟨pre, post ++ [a], ?_, h2, ?_⟩
      · rw [← List.cons_append, h1]; simp
      · intro b hb'
        rcases List.mem_append.1 hb' with h | h
        · exact h3 b h
        · simp only [List.mem_singleton] at h
          subst h
          exact hb

/-- The comparison as a boolean. -/
def holds (cmp : V → V → Except E Bool) (a b : V) : Bool :=
  match cmp a b with
  | .ok true => true
  | _ => false

theorem Order.holds_iff {P : V → Prop} {cmp : V → V → Except E Bool} {better : V → V → Prop}
    (o : Order P cmp better) (a b : V) (ha : P a) (hb : P b) :
    (holds cmp a b = true ↔ better a b) ∧ cmp a b = .ok (holds cmp a b) := by
  rcases o.total a b ha hb with ⟨h1, h2⟩ | ⟨h1, h2⟩ <;> simp [holds, h1, h2]

/-- The first best value of a list. -/
def bestOf (cmp : V → V → Except E Bool) (dflt : V) : List V → V
  | [] => dflt
  | v :: vs => pick (holds cmp) v vs

theorem bestOf_snoc (cmp : V → V → Except E Bool) (dflt : V) (vs : List V) (v : V) (h : vs ≠ []) :
    bestOf cmp dflt (vs ++ [v]) =
      if holds cmp v (bestOf cmp dflt vs) then v else bestOf cmp dflt vs := by
  cases vs with
  | nil => exact absurd rfl h
  | cons w vs => exact pick_snoc _ _ _ _

theorem bestOf_mem (cmp : V → V → Except E Bool) (dflt : V) (vs : List V) (h : vs ≠ []) :
    bestOf cmp dflt vs ∈ vs := by
  cases vs with
  | nil => exact absurd rfl h
  | cons w vs => exact pick_mem _ _ _

theorem bestOf_best {P : V → Prop} {cmp : V → V → Except E Bool} {better : V → V → Prop}
    (o : Order P cmp better) (dflt : V) (vs : List V) (h : vs ≠ []) (hp : ∀ v ∈ vs, P v) :
    FirstBest better vs (bestOf cmp dflt vs) := by
  have hm := bestOf_mem cmp dflt vs h
  cases vs with
  | nil => exact absurd rfl h
  | cons w vs =>
    obtain ⟨pre, post, h1, h2, h3⟩ := pick_best (holds cmp) P
      (fun a b c ha hb hc h1 h2 => by
        rw [(o.holds_iff _ _ ha hb).1] at h1
        rw [(o.holds_iff _ _ hb hc).1] at h2
        rw [(o.holds_iff _ _ ha hc).1]
        exact o.trans a b c ha hb hc h1 h2)
      (fun a b c ha hb hc h1 => by
        rw [(o.holds_iff _ _ ha hb).1] at h1
        rw [(o.holds_iff _ _ ha hc).1, (o.holds_iff _ _ hc hb).1]
        exact o.weak a b c ha hb hc h1) vs w hp
    have hpm := hp _ hm
    refine ⟨pre, post, h1, ?_, ?_⟩
    · intro a ha
      exact (o.holds_iff _ _ hpm (hp a (h1 ▸ by simp [ha]))).1.1 (h2 a ha)
    · intro a ha hb
      exact h3 a ha ((o.holds_iff _ _ (hp a (h1 ▸ by simp [ha])) hpm).1.2 hb)

/-- The same for values that come with a row. -/
def bestPair (cmp : V → V → Except E Bool) : V × V → List (V × V) → V × V :=
  pick (fun a b => holds cmp a.1 b.1)

theorem bestPair_best {P : V → Prop} {cmp : V → V → Except E Bool} {better : V → V → Prop}
    (o : Order P cmp better) (p : V × V) (ps : List (V × V)) (hp : ∀ q ∈ p :: ps, P q.1) :
    FirstBest (fun a b => better a.1 b.1) (p :: ps) (bestPair cmp p ps) := by
  have hm := pick_mem (fun a b : V × V => holds cmp a.1 b.1) p ps
  obtain ⟨pre, post, h1, h2, h3⟩ := pick_best (fun a b : V × V => holds cmp a.1 b.1)
    (fun q => P q.1)
    (fun a b c ha hb hc h1 h2 => by
      rw [(o.holds_iff _ _ ha hb).1] at h1
      rw [(o.holds_iff _ _ hb hc).1] at h2
      rw [(o.holds_iff _ _ ha hc).1]
      exact o.trans _ _ _ ha hb hc h1 h2)
    (fun a b c ha hb hc h1 => by
      rw [(o.holds_iff _ _ ha hb).1] at h1
      rw [(o.holds_iff _ _ ha hc).1, (o.holds_iff _ _ hc hb).1]
      exact o.weak _ _ _ ha hb hc h1) ps p hp
  have hpm := hp _ hm
  refine ⟨pre, post, h1, ?_, ?_⟩
  · intro a ha
    exact (o.holds_iff _ _ hpm (hp a (h1 ▸ by simp [ha]))).1.1 (h2 a ha)
  · intro a ha hb
    exact h3 a ha ((o.holds_iff _ _ (hp a (h1 ▸ by simp [ha])) hpm).1.2 hb)

end Verif.Reducers
