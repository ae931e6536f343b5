import Verif.JoinGen.Lemmas

/-!
# The generators of a join and the nested loops: main induction
-/

set_option autoImplicit false

namespace Verif.JoinGen

open Verif Verif.Lazy

variable {σ A K E : Type}

section

variable [DecidableEq A] [BEq K] (c : Code σ A K E) (src : Source A K) (right : Right A K)
  (rows : List A) (body : A × A → σ → Flow E × σ)

theorem eachUnmatched_congr (s t : List A) (h : ∀ x, x ∈ s ↔ x ∈ t) : ∀ (xs : List A) (w : σ),
    eachUnmatched c body s xs w = eachUnmatched c body t xs w := by
  intro xs
  induction xs with
  | nil => intro w; rfl
  | cons x xs ih =>
    intro w
    simp only [eachUnmatched]
    by_cases hx : x ∈ s
    · simp only [hx, (h x).1 hx, if_true]; exact ih w
    · have ht : x ∉ t := fun h' => hx ((h x).2 h')
      simp only [hx, ht, if_false]
      rcases body (c.none_, x) w with ⟨_ | _ | _, w2⟩
      · exact ih w2
      · rfl
      · rfl

/-- The end of the loops, after the outer loop. -/
def closing (seen : List A) (x : End E × List A × World σ) : End E × σ :=
  match x with
  | (.done, given, W3) => eachUnmatched c body (given ++ seen) rows W3.st
  | (e, _, W3) => (e, W3.st)

theorem closing_congr (s t : List A) (e : End E) (a b : List A) (W : World σ)
    (h : ∀ x, x ∈ a ++ s ↔ x ∈ b ++ t) :
    closing c rows body s (e, a, W) = closing c rows body t (e, b, W) := by
  cases e with
  | done => exact eachUnmatched_congr c body _ _ h _ _
  | brk => rfl
  | raise e => rfl
  | out => rfl

/-- The outer loop after one row's. -/
def rowThen (n : ℕ) (seen : List A) (x : End E × List A × World σ) : End E × σ :=
  match x with
  | (.done, ms, W3) => closing c rows body (ms ++ seen) (eachLeft c right body n W3)
  | (e, _, W3) => (e, W3.st)

theorem rowThen_congr (n : ℕ) (s t : List A) (e : End E) (a b : List A) (W : World σ)
    (h : ∀ x, x ∈ a ++ s ↔ x ∈ b ++ t) :
    rowThen c right rows body n s (e, a, W) = rowThen c right rows body n t (e, b, W) := by
  cases e with
  | done =>
    simp only [rowThen]
    rcases eachLeft c right body n W with ⟨e, ms, W3⟩
    apply closing_congr
    intro x
    rw [List.mem_append, h x, ← List.mem_append]
  | brk => rfl
  | raise e => rfl
  | out => rfl

theorem row_runs (n : ℕ)
    (htop : ∀ seen W, Runs c src rows body (.top seen) n W
      (closing c rows body seen (eachLeft c right body n W))) (l : A) :
    ∀ (z : ℕ) (it : It A) (W : World σ) (_ : it.size W = z) (seen : List A),
      Runs c src rows body (.row l it seen) n W (rowThen c right rows body n seen
        (eachIt c l (fun r w => body (c.kind.pair l r) w) it W)) := by
  intro z
  induction z using Nat.strongRecOn with
  | ind z ih =>
    intro it W hz seen
    apply runs_of_after
    rw [eachIt_scan]
    simp only [gNext]
    rcases hs : scan c l it W with ⟨r | _ | _ | _, W1⟩
    · rename_i rest
      simp only [After]
      rcases hb : body (c.kind.pair l r) W1.st with ⟨_ | _ | _, w2⟩
      · dsimp only
        have hlt := scan_size c l it W W1 r rest hs w2
        have h := ih _ (hz ▸ hlt) rest ⟨W1.right, W1.closed, w2⟩ rfl (r :: seen)
        rcases he : eachIt c l (fun r w => body (c.kind.pair l r) w) rest
          ⟨W1.right, W1.closed, w2⟩ with ⟨e, ms, W3⟩
        rw [he] at h
        dsimp only
        rw [rowThen_congr c right rows body n seen (r :: seen) e (r :: ms) ms W3 (by
          intro x; simp only [List.cons_append, List.mem_cons, List.mem_append]; grind)]
        exact h
      · rfl
      · rfl
    · exact after_of_runs c src rows body (.top seen) n W1 _ (htop seen W1)
    · rfl
    · rfl

/-- What the source of the right items has to do with the right side of the loops. -/
def Serves : Prop :=
  ∀ (l : A) (act : A → σ → Flow E × σ) (W : World σ),
    eachMatch c right l act W =
      match c.itemsOf src l W.st with
      | (.error e, w1) => (.raise e, [], ⟨W.right, W.closed, w1⟩)
      | (.ok it, w1) => eachIt c l act it ⟨W.right, W.closed, w1⟩

theorem top_runs (hsv : Serves c src right) : ∀ (n : ℕ) (seen : List A) (W : World σ),
    Runs c src rows body (.top seen) n W
      (closing c rows body seen (eachLeft c right body n W)) := by
  intro n
  induction n with
  | zero => intro seen W; exact runs_of_after c src rows body _ _ _ _ rfl
  | succ n ih =>
    intro seen W
    apply runs_of_after
    simp only [gNext, gTop, eachLeft]
    rcases c.pullL W.st with ⟨l | _ | e, w1⟩
    · dsimp only
      rcases test c.leftFilter l w1 with ⟨_ | b, w2⟩
      · rfl
      · cases b
        · exact after_of_runs c src rows body (.top seen) n _ _ (ih seen _)
        · dsimp only
          rw [hsv]
          dsimp only
          rcases c.itemsOf src l w2 with ⟨_ | it, w3⟩
          · rfl
          · dsimp only
            rw [eachIt_scan]
            rcases hs : scan c l it ⟨W.right, W.closed, w3⟩ with ⟨r | _ | _ | _, W4⟩
            · rename_i rest
              simp only [After]
              rcases hb : body (c.kind.pair l r) W4.st with ⟨_ | _ | _, w5⟩
              · dsimp only
                have h := row_runs c src right rows body n ih l _ rest ⟨W4.right, W4.closed, w5⟩ rfl
                  (r :: seen)
                rcases he : eachIt c l (fun r w => body (c.kind.pair l r) w) rest
                  ⟨W4.right, W4.closed, w5⟩ with ⟨e, ms, W5⟩
                rw [he] at h
                cases e with
                | done =>
                  simp only [rowThen] at h
                  dsimp only
                  rcases he2 : eachLeft c right body n W5 with ⟨e, ms', W6⟩
                  rw [he2] at h
                  have := closing_congr c rows body (ms ++ r :: seen) seen e ms' (r :: ms ++ ms') W6 (by
                    intro x
                    simp only [List.mem_append, List.mem_cons]
                    grind)
                  rw [this] at h
                  exact h
                | brk => exact h
                | raise e => exact h
                | out => exact h
              · rfl
              · rfl
            · dsimp only
              by_cases hk : c.kind = .inner
              · simp only [hk, if_true, lonely]
                have h := after_of_runs c src rows body (.top (c.none_ :: seen)) n W4 _
                  (ih (c.none_ :: seen) W4)
                rcases he : eachLeft c right body n W4 with ⟨e, ms', W6⟩
                rw [he] at h
                have := closing_congr c rows body (c.none_ :: seen) seen e ms' (c.none_ :: ms') W6 (by
                  intro x
                  simp only [List.mem_append, List.mem_cons]
                  grind)
                rw [this] at h
                exact h
              · simp only [hk, if_false, lonely, After]
                rcases hb : body (c.kind.pair l c.none_) W4.st with ⟨_ | _ | _, w5⟩
                · dsimp only
                  have h := ih (c.none_ :: seen) ⟨W4.right, W4.closed, w5⟩
                  rcases he : eachLeft c right body n ⟨W4.right, W4.closed, w5⟩ with ⟨e, ms', W6⟩
                  rw [he] at h
                  have := closing_congr c rows body (c.none_ :: seen) seen e ms' (c.none_ :: ms') W6 (by
                    intro x
                    simp only [List.mem_append, List.mem_cons]
                    grind)
                  rw [this] at h
                  exact h
                · rfl
                · rfl
            · rfl
            · rfl
    · simp only [closing, List.nil_append]
      exact gRest_after c src rows body seen rows n ⟨W.right, W.closed, w1⟩
    · rfl

end

/-! ## Reading the right side -/

/-- The dict holds, under each key, the rows with that key. -/
def Holds [BEq K] (d : List (K × List A)) (ks : List (K × A)) : Prop :=
  ∀ k, (Dict.get? d k).getD [] = (ks.filter (fun p => p.1 == k)).map Prod.snd

theorem holds_nil [BEq K] : Holds ([] : List (K × List A)) [] := by intro k; rfl

theorem holds_set [BEq K] [EquivBEq K] (d : List (K × List A)) (ks : List (K × A)) (h : Holds d ks)
    (k : K) (r : A) :
    Holds (Dict.set d k ((Dict.get? d k).getD [] ++ [r])) (ks ++ [(k, r)]) := by
  intro k'
  rw [Dict.get?_set]
  by_cases hk : (k == k') = true
  · simp only [hk, if_true, Option.getD_some, List.filter_append, List.map_append]
    rw [Dict.get?_congr d k k' hk, h k']
    simp [hk]
  · simp [hk, h k']

theorem collect_append (c : Code σ A K E) : ∀ (m : ℕ) (t : List A) (w : σ),
    foldRight c appendStep m t w =
      match collect c asIs m w with
      | (.ok ts, m', w') => (.ok (t ++ ts), m', w')
      | (.raise e, m', w') => (.raise e, m', w')
      | (.out, m', w') => (.out, m', w') := by
  intro m
  induction m with
  | zero => intro t w; rfl
  | succ m ih =>
    intro t w
    simp only [foldRight, collect]
    rcases c.pullR w with ⟨r | _ | e, w1⟩
    · dsimp only
      rcases test c.rightFilter r w1 with ⟨_ | b, w2⟩
      · rfl
      · cases b
        · exact ih t w2
        · simp only [appendStep, asIs]
          rw [ih]
          rcases collect c asIs m w2 with ⟨_ | _ | _, m', w'⟩
          · simp
          · rfl
          · rfl
    · simp
    · rfl

theorem collect_hash [BEq K] [EquivBEq K] (c : Code σ A K E) (key : A → σ → Except E K × σ) :
    ∀ (m : ℕ) (d : List (K × List A)) (ks : List (K × A)) (_ : Holds d ks) (w : σ),
    match collect c (keyed key) m w with
    | (.ok ts, m', w') => ∃ d', foldRight c (hashStep key) m d w = (.ok d', m', w') ∧ Holds d' (ks ++ ts)
    | (.raise e, m', w') => foldRight c (hashStep key) m d w = (.raise e, m', w')
    | (.out, m', w') => foldRight c (hashStep key) m d w = (.out, m', w') := by
  intro m
  induction m with
  | zero => intro d ks h w; rfl
  | succ m ih =>
    intro d ks h w
    simp only [foldRight, collect]
    rcases c.pullR w with ⟨r | _ | e, w1⟩
    · dsimp only
      rcases test c.rightFilter r w1 with ⟨_ | b, w2⟩
      · rfl
      · cases b
        · exact ih d ks h w2
        · simp only [hashStep, keyed]
          rcases key r w2 with ⟨_ | k, w3⟩
          · rfl
          · dsimp only
            have h1 := ih _ _ (holds_set d ks h k r) w3
            revert h1
            rcases collect c (keyed key) m w3 with ⟨ts | _ | _, m', w'⟩
            · simp
            · exact id
            · exact id
    · exact ⟨d, rfl, by simpa using h⟩
    · rfl

theorem withKeys_hash [BEq K] [EquivBEq K] (key : A → σ → Except E K × σ) :
    ∀ (rows : List A) (d : List (K × List A)) (ks : List (K × A)) (_ : Holds d ks) (w : σ),
    match withKeys key rows w with
    | (.ok ts, w') => ∃ d', foldRows (hashStep key) rows d w = (.ok d', w') ∧ Holds d' (ks ++ ts)
    | (.error e, w') => foldRows (hashStep key) rows d w = (.error e, w') := by
  intro rows
  induction rows with
  | nil => intro d ks h w; exact ⟨d, rfl, by simpa using h⟩
  | cons r rows ih =>
    intro d ks h w
    simp only [withKeys, foldRows, hashStep]
    rcases key r w with ⟨_ | k, w1⟩
    · rfl
    · dsimp only
      have h1 := ih _ _ (holds_set d ks h k r) w1
      revert h1
      rcases withKeys key rows w1 with ⟨_ | ts, w'⟩
      · exact id
      · simp

theorem serves_rows [BEq K] (c : Code σ A K E) (rows : List A) :
    Serves c (.items rows) (.rows rows) := fun _ _ _ => rfl

theorem serves_stream [BEq K] (c : Code σ A K E) : Serves c .iter .stream := fun _ _ _ => rfl

theorem serves_keyed [BEq K] (c : Code σ A K E) (d : List (K × List A)) (ks : List (K × A))
    (h : Holds d ks) : Serves c (.hashed d) (.keyed ks) := by
  intro l act W
  simp only [eachMatch, Code.itemsOf]
  rcases hk : c.keys with _ | ⟨key, key2⟩
  · rfl
  · dsimp only
    rcases key l W.st with ⟨_ | k, w1⟩
    · rfl
    · simp only [eachIt]
      rw [h k]

/-- What runs before the generators is what the loops read first. -/
theorem start_eq [BEq K] [EquivBEq K] (c : Code σ A K E) (m : ℕ) (w : σ) :
    match readRight c m w with
    | (.ok (right, rows), m', w') =>
      ∃ src, start c m w = (.ok (src, rows), m', w') ∧ Serves c src right ∧
        (c.kind ≠ .outer → rows = [])
    | (.raise e, m', w') => start c m w = (.raise e, m', w')
    | (.out, m', w') => start c m w = (.out, m', w') := by
  unfold readRight start
  by_cases ho : c.kind = .outer
  · simp only [ho, if_true, startOuter]
    rw [collect_append]
    rcases collect c asIs m w with ⟨rows | _ | _, m1, w1⟩
    · simp only [List.nil_append]
      rcases hk : c.keys with _ | ⟨key, key2⟩
      · exact ⟨_, rfl, serves_rows c rows, fun h => (h rfl).elim⟩
      · dsimp only
        have h := withKeys_hash key2 rows [] [] holds_nil w1
        revert h
        rcases withKeys key2 rows w1 with ⟨_ | ks, w2⟩
        · intro h
          simp only at h
          simp only [h]
        · rintro ⟨d, h1, h2⟩
          simp only [h1]
          exact ⟨_, rfl, serves_keyed c d ks h2, fun h => (h rfl).elim⟩
    · rfl
    · rfl
  · simp only [ho, if_false, startOther]
    rcases hk : c.keys with _ | ⟨key, key2⟩
    · dsimp only
      cases c.rows with
      | none => exact ⟨_, rfl, serves_stream c, fun _ => rfl⟩
      | some rows =>
        cases hf : c.rightFilter with
        | none => exact ⟨_, rfl, serves_rows c rows, fun _ => rfl⟩
        | some f => exact ⟨_, rfl, serves_stream c, fun _ => rfl⟩
    · dsimp only
      have h := collect_hash c key2 m [] [] holds_nil w
      revert h
      rcases collect c (keyed key2) m w with ⟨ks | _ | _, m1, w1⟩
      · rintro ⟨d, h1, h2⟩
        simp only [h1]
        exact ⟨_, rfl, serves_keyed c d ks h2, fun _ => by simp⟩
      · intro h; simp only at h; simp only [h]
      · intro h; simp only at h; simp only [h]

end Verif.JoinGen
