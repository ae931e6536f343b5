import Verif.Lazy.Spec
/-!
# C54: generator comprehensions pull on demand
-/
set_option autoImplicit false

namespace Verif.Lazy

variable {σ V E : Type}

/-- Generators which were not used yet. -/
def fresh (gs : List (Stage σ V E)) : Gens σ V E := gs.map fun g => (g, false)

/-! ## More fuel does not change results -/

theorem next_mono (pull : σ → Pull V E × σ) : ∀ (n m : ℕ) (gs : Gens σ V E) (w : σ)
    (x : Pull V E × Gens σ V E × σ), n ≤ m → next pull n gs w = some x → next pull m gs w = some x := by
  intro n
  induction n with
  | zero => intro m gs w x _ h; simp [next] at h
  | succ n ih =>
    intro m gs w x hm h
    obtain ⟨m, rfl⟩ : ∃ m', m = m' + 1 := ⟨m - 1, by omega⟩
    have hm' : n ≤ m := by omega
    cases gs with
    | nil => exact h
    | cons gb gs =>
      obtain ⟨g, b⟩ := gb
      cases b with
      | true => exact h
      | false =>
        simp only [next] at h ⊢
        cases hr : next pull n gs w with
        | none => rw [hr] at h; simp at h
        | some q =>
          rw [hr] at h
          rw [ih m gs w q hm' hr]
          obtain ⟨r, gs', w1⟩ := q
          cases r with
          | stop => exact h
          | raise e => exact h
          | yield v =>
            simp only at h ⊢
            cases ht : g.test v w1 with
            | mk a w2 =>
              rw [ht] at h
              cases a with
              | error e => exact h
              | ok b =>
                cases b with
                | false => exact ih m _ _ _ hm' h
                | true => exact h

theorem first_mono (pull : σ → Pull V E × σ) (gs : List (Stage σ V E)) : ∀ (n m : ℕ) (w : σ)
    (x : Pull V E × σ), n ≤ m → first pull gs n w = some x → first pull gs m w = some x := by
  intro n
  induction n with
  | zero => intro m w x _ h; simp [first] at h
  | succ n ih =>
    intro m w x hm h
    obtain ⟨m, rfl⟩ : ∃ m', m = m' + 1 := ⟨m - 1, by omega⟩
    have hm' : n ≤ m := by omega
    simp only [first] at h ⊢
    cases hp : pull w with
    | mk r w1 =>
      rw [hp] at h
      cases r with
      | stop => exact h
      | raise e => exact h
      | yield v =>
        simp only at h ⊢
        cases ht : through gs v w1 with
        | mk a w2 =>
          rw [ht] at h
          cases a with
          | error e => exact h
          | ok o =>
            cases o with
            | none => exact ih m _ _ hm' h
            | some u => exact h

/-! ## The specification, one stage more -/

/-- What a generator does with what it got from its input. -/
def after (pull : σ → Pull V E × σ) (g : Stage σ V E) (gs : List (Stage σ V E)) (n : ℕ) :
    Pull V E × σ → Option (Pull V E × σ)
  | (.stop, w1) => some (.stop, w1)
  | (.raise e, w1) => some (.raise e, w1)
  | (.yield v, w1) =>
    match g.test v w1 with
    | (.error e, w2) => some (.raise e, w2)
    | (.ok false, w2) => first pull (g :: gs) n w2
    | (.ok true, w2) =>
      match g.item v w2 with
      | (.error e, w3) => some (.raise e, w3)
      | (.ok u, w3) => some (.yield u, w3)

theorem first_cons (pull : σ → Pull V E × σ) (g : Stage σ V E) (gs : List (Stage σ V E)) (n : ℕ)
    (q x : Pull V E × σ) (ha : after pull g gs n q = some x) : ∀ (m : ℕ) (w : σ),
    first pull gs m w = some q → ∃ k, first pull (g :: gs) k w = some x := by
  intro m
  induction m with
  | zero => intro w h; simp [first] at h
  | succ m ih =>
    intro w h
    simp only [first] at h
    cases hp : pull w with
    | mk r w1 =>
      rw [hp] at h
      cases r with
      | stop =>
        simp only [Option.some.injEq] at h; subst h
        simp only [after, Option.some.injEq] at ha; subst ha
        exact ⟨1, by simp [first, hp]⟩
      | raise e =>
        simp only [Option.some.injEq] at h; subst h
        simp only [after, Option.some.injEq] at ha; subst ha
        exact ⟨1, by simp [first, hp]⟩
      | yield v =>
        simp only at h
        cases ht : through gs v w1 with
        | mk a w2 =>
          rw [ht] at h
          cases a with
          | error e =>
            simp only [Option.some.injEq] at h; subst h
            simp only [after, Option.some.injEq] at ha; subst ha
            exact ⟨1, by simp [first, hp, through, ht]⟩
          | ok o =>
            cases o with
            | none =>
              obtain ⟨k, hk⟩ := ih w2 h
              exact ⟨k + 1, by simp [first, hp, through, ht, hk]⟩
            | some u =>
              simp only [Option.some.injEq] at h; subst h
              simp only [after] at ha
              cases hg : g.test u w2 with
              | mk b w3 =>
                rw [hg] at ha
                cases b with
                | error e =>
                  simp only [Option.some.injEq] at ha; subst ha
                  exact ⟨1, by simp [first, hp, through, ht, hg]⟩
                | ok b =>
                  cases b with
                  | false => exact ⟨n + 1, by simpa [first, hp, through, ht, hg] using ha⟩
                  | true =>
                    simp only at ha
                    cases hi : g.item u w3 with
                    | mk c w4 =>
                      rw [hi] at ha
                      cases c with
                      | error e =>
                        simp only [Option.some.injEq] at ha; subst ha
                        exact ⟨1, by simp [first, hp, through, ht, hg, hi]⟩
                      | ok y =>
                        simp only [Option.some.injEq] at ha; subst ha
                        exact ⟨1, by simp [first, hp, through, ht, hg, hi]⟩

theorem cons_first (pull : σ → Pull V E × σ) (g : Stage σ V E) (gs : List (Stage σ V E))
    (x : Pull V E × σ) : ∀ (k : ℕ) (w : σ), first pull (g :: gs) k w = some x →
    ∃ m q n, n < k ∧ first pull gs m w = some q ∧ after pull g gs n q = some x := by
  intro k
  induction k with
  | zero => intro w h; simp [first] at h
  | succ k ih =>
    intro w h
    simp only [first, through] at h
    cases hp : pull w with
    | mk r w1 =>
      rw [hp] at h
      cases r with
      | stop => exact ⟨1, (.stop, w1), 0, by omega, by simp [first, hp], h⟩
      | raise e => exact ⟨1, (.raise e, w1), 0, by omega, by simp [first, hp], h⟩
      | yield v =>
        simp only at h
        cases ht : through gs v w1 with
        | mk a w2 =>
          rw [ht] at h
          cases a with
          | error e => exact ⟨1, (.raise e, w2), 0, by omega, by simp [first, hp, ht], h⟩
          | ok o =>
            cases o with
            | none =>
              obtain ⟨m, q, n, hn, h1, h2⟩ := ih w2 h
              exact ⟨m + 1, q, n, by omega, by simp [first, hp, ht, h1], h2⟩
            | some u =>
              refine ⟨1, (.yield u, w2), k, by omega, by simp [first, hp, ht], ?_⟩
              simp only [after]
              cases hg : g.test u w2 with
              | mk b w3 =>
                simp only [hg] at h
                cases b with
                | error e => exact h
                | ok b =>
                  cases b with
                  | false => exact h
                  | true =>
                    simp only at h ⊢
                    cases hi : g.item u w3 with
                    | mk c w4 =>
                      simp only [hi] at h
                      cases c with
                      | error e => exact h
                      | ok y => exact h

/-! ## One call of `next` -/

/-- The state of the generators after a call: unchanged after a value; otherwise the outermost one is
finished. -/
def Left (gs : List (Stage σ V E)) (r : Pull V E) (gs' : Gens σ V E) : Prop :=
  (∀ v, r = .yield v → gs' = fresh gs) ∧
  ((∀ v, r ≠ .yield v) → gs ≠ [] → ∃ g rest, gs' = (g, true) :: rest)

theorem next_first (pull : σ → Pull V E × σ) : ∀ (gs : List (Stage σ V E)) (n : ℕ) (w w' : σ)
    (r : Pull V E) (gs' : Gens σ V E), next pull n (fresh gs) w = some (r, gs', w') →
    (∃ m, first pull gs m w = some (r, w')) ∧ Left gs r gs' := by
  intro gs
  induction gs with
  | nil =>
    intro n w w' r gs' h
    cases n with
    | zero => simp [next] at h
    | succ n =>
      simp only [fresh, List.map_nil, next, Option.some.injEq, Prod.mk.injEq] at h
      obtain ⟨h1, rfl, h3⟩ := h
      refine ⟨⟨1, ?_⟩, fun _ _ => rfl, fun _ h => absurd rfl h⟩
      cases hp : pull w with
      | mk r' w1 =>
        rw [hp] at h1 h3
        simp only at h1 h3
        subst h1; subst h3
        cases r' <;> simp [first, hp, through]
  | cons g gs ih =>
    intro n
    induction n with
    | zero => intro w w' r gs' h; simp [next] at h
    | succ n ihn =>
      intro w w' r gs' h
      simp only [fresh, List.map_cons, next] at h
      cases hr : next pull n (gs.map fun g => (g, false)) w with
      | none => rw [hr] at h; simp at h
      | some q =>
        obtain ⟨r1, gs1, w1⟩ := q
        rw [hr] at h
        obtain ⟨⟨m, hm⟩, hl⟩ := ih n w w1 r1 gs1 hr
        have fin : ∀ (r : Pull V E), (∀ v, r ≠ .yield v) → Left (g :: gs) r ((g, true) :: gs1) :=
          fun r hr => ⟨fun v e => absurd e (hr v), fun _ _ => ⟨g, gs1, rfl⟩⟩
        cases r1 with
        | stop =>
          simp only [Option.some.injEq, Prod.mk.injEq] at h
          obtain ⟨rfl, rfl, rfl⟩ := h
          exact ⟨first_cons pull g gs 0 _ _ rfl m w hm, fin _ (by simp)⟩
        | raise e =>
          simp only [Option.some.injEq, Prod.mk.injEq] at h
          obtain ⟨rfl, rfl, rfl⟩ := h
          exact ⟨first_cons pull g gs 0 _ _ rfl m w hm, fin _ (by simp)⟩
        | yield v =>
          have hgs1 : gs1 = fresh gs := hl.1 v rfl
          simp only at h
          cases ht : g.test v w1 with
          | mk a w2 =>
            rw [ht] at h
            cases a with
            | error e =>
              simp only [Option.some.injEq, Prod.mk.injEq] at h
              obtain ⟨rfl, rfl, rfl⟩ := h
              exact ⟨first_cons pull g gs 0 _ _ (by simp [after, ht]) m w hm, fin _ (by simp)⟩
            | ok b =>
              cases b with
              | false =>
                simp only at h
                rw [hgs1] at h
                obtain ⟨⟨k, hk⟩, hl'⟩ := ihn w2 w' r gs' h
                exact ⟨first_cons pull g gs k _ _ (by simp [after, ht, hk]) m w hm, hl'⟩
              | true =>
                simp only at h
                cases hi : g.item v w2 with
                | mk c w3 =>
                  rw [hi] at h
                  cases c with
                  | error e =>
                    simp only [Option.some.injEq, Prod.mk.injEq] at h
                    obtain ⟨rfl, rfl, rfl⟩ := h
                    exact ⟨first_cons pull g gs 0 _ _ (by simp [after, ht, hi]) m w hm,
                      fin _ (by simp)⟩
                  | ok u =>
                    simp only [Option.some.injEq, Prod.mk.injEq] at h
                    obtain ⟨rfl, rfl, rfl⟩ := h
                    refine ⟨first_cons pull g gs 0 _ _ (by simp [after, ht, hi]) m w hm,
                      fun _ _ => ?_, fun h => absurd rfl (h u)⟩
                    rw [hgs1]; rfl

theorem first_next (pull : σ → Pull V E × σ) : ∀ (gs : List (Stage σ V E)) (m : ℕ) (w w' : σ)
    (r : Pull V E), first pull gs m w = some (r, w') →
    ∃ n gs', next pull n (fresh gs) w = some (r, gs', w') := by
  intro gs
  induction gs with
  | nil =>
    intro m w w' r h
    cases m with
    | zero => simp [first] at h
    | succ m =>
      refine ⟨1, [], ?_⟩
      simp only [first, through] at h
      cases hp : pull w with
      | mk r' w1 =>
        rw [hp] at h
        cases r' <;> (simp at h; obtain ⟨rfl, rfl⟩ := h; simp [fresh, next, hp])
  | cons g gs ih =>
    intro m
    induction m using Nat.strongRecOn with
    | _ m ihm =>
      intro w w' r h
      obtain ⟨k, ⟨r1, w1⟩, n, hn, h1, h2⟩ := cons_first pull g gs _ m w h
      obtain ⟨n1, gs1, hn1⟩ := ih k w w1 r1 h1
      have hl := (next_first pull gs n1 w w1 r1 gs1 hn1).2
      have hn1' : next pull n1 (gs.map fun g => (g, false)) w = some (r1, gs1, w1) := hn1
      cases r1 with
      | stop =>
        simp only [after, Option.some.injEq, Prod.mk.injEq] at h2
        obtain ⟨rfl, rfl⟩ := h2
        exact ⟨n1 + 1, _, by simp only [fresh, List.map_cons, next, hn1']; rfl⟩
      | raise e =>
        simp only [after, Option.some.injEq, Prod.mk.injEq] at h2
        obtain ⟨rfl, rfl⟩ := h2
        exact ⟨n1 + 1, _, by simp only [fresh, List.map_cons, next, hn1']; rfl⟩
      | yield v =>
        have hgs1 : gs1 = fresh gs := hl.1 v rfl
        simp only [after] at h2
        cases ht : g.test v w1 with
        | mk a w2 =>
          rw [ht] at h2
          cases a with
          | error e =>
            simp only [Option.some.injEq, Prod.mk.injEq] at h2
            obtain ⟨rfl, rfl⟩ := h2
            exact ⟨n1 + 1, _, by simp only [fresh, List.map_cons, next, hn1', ht]; rfl⟩
          | ok b =>
            cases b with
            | false =>
              simp only at h2
              obtain ⟨n2, gs2, h3⟩ := ihm n hn w2 w' r h2
              refine ⟨max n1 n2 + 1, gs2, ?_⟩
              have e1 := next_mono pull n1 (max n1 n2) _ _ _ (by omega) hn1'
              have e2 := next_mono pull n2 (max n1 n2) _ _ _ (by omega) h3
              simp only [fresh, List.map_cons, next, e1, ht]
              rw [hgs1]
              exact e2
            | true =>
              simp only at h2
              cases hi : g.item v w2 with
              | mk c w3 =>
                rw [hi] at h2
                cases c with
                | error e =>
                  simp only [Option.some.injEq, Prod.mk.injEq] at h2
                  obtain ⟨rfl, rfl⟩ := h2
                  exact ⟨n1 + 1, _, by simp only [fresh, List.map_cons, next, hn1', ht, hi]; rfl⟩
                | ok u =>
                  simp only [Option.some.injEq, Prod.mk.injEq] at h2
                  obtain ⟨rfl, rfl⟩ := h2
                  exact ⟨n1 + 1, _, by simp only [fresh, List.map_cons, next, hn1', ht, hi]; rfl⟩

/-! ## Any number of calls -/

theorem takes_mono (pull : σ → Pull V E × σ) (n m : ℕ) (hm : n ≤ m) : ∀ (k : ℕ) (gs : Gens σ V E)
    (w : σ) (x : List (Pull V E) × Gens σ V E × σ), takes pull n k gs w = some x →
    takes pull m k gs w = some x := by
  intro k
  induction k with
  | zero => intro gs w x h; exact h
  | succ k ih =>
    intro gs w x h
    simp only [takes] at h ⊢
    cases hn : next pull n gs w with
    | none => rw [hn] at h; simp at h
    | some q =>
      obtain ⟨r, gs1, w1⟩ := q
      rw [hn] at h
      rw [next_mono pull n m gs w _ hm hn]
      simp only at h ⊢
      cases ht : takes pull n k gs1 w1 with
      | none => rw [ht] at h; simp at h
      | some q => rw [ht] at h; rw [ih gs1 w1 q ht]; exact h

theorem serve_mono (pull : σ → Pull V E × σ) (gs : List (Stage σ V E)) (n m : ℕ) (hm : n ≤ m) :
    ∀ (k : ℕ) (w : σ) (x : List (Pull V E) × σ), serve pull gs n k w = some x →
    serve pull gs m k w = some x := by
  intro k
  induction k with
  | zero => intro w x h; exact h
  | succ k ih =>
    intro w x h
    simp only [serve] at h ⊢
    cases hn : first pull gs n w with
    | none => rw [hn] at h; simp at h
    | some q =>
      obtain ⟨r, w1⟩ := q
      rw [hn] at h
      rw [first_mono pull gs n m w _ hm hn]
      cases r with
      | stop => exact h
      | raise e => exact h
      | yield v =>
        simp only at h ⊢
        cases ht : serve pull gs n k w1 with
        | none => rw [ht] at h; simp at h
        | some q => rw [ht] at h; rw [ih w1 q ht]; exact h

/-- A finished generator gives nothing and does nothing, however often it is asked. -/
theorem takes_finished (pull : σ → Pull V E × σ) (n : ℕ) (g : Stage σ V E) (rest : Gens σ V E) :
    ∀ (k : ℕ) (w : σ), takes pull (n + 1) k ((g, true) :: rest) w =
      some (List.replicate k .stop, (g, true) :: rest, w) := by
  intro k
  induction k with
  | zero => intro w; rfl
  | succ k ih => intro w; simp [takes, next, ih, List.replicate_succ]

/-- **C54**: for every chain of generator comprehensions, every input (also an endless one) and every
number of calls of `next`: the calls give and do exactly what the specification says – elements of
the input are taken one at a time, each goes through all the conditions and items (one application
each, the innermost first) before the next one is taken, no element is taken before it is needed, and
after the end or an exception nothing is given and nothing is done any more.  The two sides also
agree on which calls return at all. -/
theorem C54_on_demand (pull : σ → Pull V E × σ) (gs : List (Stage σ V E)) (hne : gs ≠ []) (k : ℕ)
    (w w' : σ) (out : List (Pull V E)) :
    (∃ n gs', takes pull n k (fresh gs) w = some (out, gs', w')) ↔
      ∃ n, serve pull gs n k w = some (out, w') := by
  induction k generalizing w out with
  | zero =>
    constructor
    · rintro ⟨n, gs', h⟩
      simp only [takes, Option.some.injEq, Prod.mk.injEq] at h
      obtain ⟨rfl, _, rfl⟩ := h
      exact ⟨0, rfl⟩
    · rintro ⟨n, h⟩
      simp only [serve, Option.some.injEq, Prod.mk.injEq] at h
      obtain ⟨rfl, rfl⟩ := h
      exact ⟨0, fresh gs, rfl⟩
  | succ k ih =>
    constructor
    · rintro ⟨n, gs', h⟩
      simp only [takes] at h
      cases hn : next pull n (fresh gs) w with
      | none => rw [hn] at h; simp at h
      | some q =>
        obtain ⟨r, gs1, w1⟩ := q
        rw [hn] at h
        simp only at h
        obtain ⟨⟨m, hm⟩, hl⟩ := next_first pull gs n w w1 r gs1 hn
        cases ht : takes pull n k gs1 w1 with
        | none => rw [ht] at h; simp at h
        | some q =>
          obtain ⟨rs, gs2, w2⟩ := q
          rw [ht] at h
          simp only [Option.some.injEq, Prod.mk.injEq] at h
          obtain ⟨rfl, rfl, rfl⟩ := h
          have ended : (∀ v, r ≠ .yield v) → rs = List.replicate k .stop ∧ w2 = w1 := by
            intro hr
            obtain ⟨g, rest, rfl⟩ := hl.2 hr hne
            have e := takes_mono pull n (n + 1) (by omega) k _ _ _ ht
            rw [takes_finished] at e
            simp only [Option.some.injEq, Prod.mk.injEq] at e
            exact ⟨e.1.symm, e.2.2.symm⟩
          cases r with
          | stop =>
            obtain ⟨rfl, rfl⟩ := ended (by simp)
            exact ⟨m, by simp [serve, hm]⟩
          | raise e =>
            obtain ⟨rfl, rfl⟩ := ended (by simp)
            exact ⟨m, by simp [serve, hm]⟩
          | yield v =>
            rw [hl.1 v rfl] at ht
            obtain ⟨m2, h2⟩ := (ih w1 rs).1 ⟨n, gs2, ht⟩
            refine ⟨max m m2, ?_⟩
            simp only [serve, first_mono pull gs m (max m m2) _ _ (by omega) hm,
              serve_mono pull gs m2 (max m m2) (by omega) _ _ _ h2]
    · rintro ⟨n, h⟩
      simp only [serve] at h
      cases hn : first pull gs n w with
      | none => rw [hn] at h; simp at h
      | some q =>
        obtain ⟨r, w1⟩ := q
        rw [hn] at h
        obtain ⟨m, gs1, hm⟩ := first_next pull gs n w w1 r hn
        have hl := (next_first pull gs m w w1 r gs1 hm).2
        have ended : (∀ v, r ≠ .yield v) →
            ∃ gs', takes pull (m + 1) (k + 1) (fresh gs) w =
              some (r :: List.replicate k .stop, gs', w1) := by
          intro hr
          obtain ⟨g, rest, rfl⟩ := hl.2 hr hne
          refine ⟨(g, true) :: rest, ?_⟩
          simp only [takes, next_mono pull m (m + 1) _ _ _ (by omega) hm, takes_finished]
        cases r with
        | stop =>
          simp only [Option.some.injEq, Prod.mk.injEq] at h
          obtain ⟨rfl, rfl⟩ := h
          exact ⟨m + 1, ended (by simp)⟩
        | raise e =>
          simp only [Option.some.injEq, Prod.mk.injEq] at h
          obtain ⟨rfl, rfl⟩ := h
          exact ⟨m + 1, ended (by simp)⟩
        | yield v =>
          simp only at h
          cases hs : serve pull gs n k w1 with
          | none => rw [hs] at h; simp at h
          | some q =>
            obtain ⟨rs, w2⟩ := q
            rw [hs] at h
            simp only [Option.some.injEq, Prod.mk.injEq] at h
            obtain ⟨rfl, rfl⟩ := h
            obtain ⟨m2, gs2, h2⟩ := (ih w1 rs).2 ⟨n, hs⟩
            refine ⟨max m m2, gs2, ?_⟩
            have e := hl.1 v rfl
            subst e
            simp only [takes, next_mono pull m (max m m2) _ _ _ (by omega) hm,
              takes_mono pull m2 (max m m2) (by omega) _ _ _ _ h2]

/-- C54: creating the generators runs nothing but `iter(input)`: an input which cannot be iterated raises
when the converter is called, everything else is postponed. -/
theorem C54_create (iter : σ → Except E Unit × σ) (gs : List (Stage σ V E)) (w : σ) :
    (create iter gs w).2 = (iter w).2 ∧
    (∀ e, (iter w).1 = .error e → (create iter gs w).1 = .error e) ∧
    ((iter w).1 = .ok () → (create iter gs w).1 = .ok (fresh gs)) := by
  unfold create
  cases hi : iter w with
  | mk a w1 =>
    cases a with
    | error e => exact ⟨rfl, fun e' h => by simpa using h, fun h => by simp at h⟩
    | ok u => exact ⟨rfl, fun e' h => by simp at h, fun _ => rfl⟩

/-! ## Consuming a generator completely -/

/-- The iterator of a list: its remaining items are part of the state. -/
def pullList : List V × σ → Pull V E × (List V × σ)
  | ([], w) => (.stop, ([], w))
  | (x :: xs, w) => (.yield x, (xs, w))

/-- A stage which leaves the iterator of the input alone. -/
def Stage.lift (g : Stage σ V E) : Stage (List V × σ) V E where
  item v s := ((g.item v s.2).1, (s.1, (g.item v s.2).2))
  cond := g.cond.map fun c v s => ((c v s.2).1, (s.1, (c v s.2).2))

theorem lift_test (g : Stage σ V E) (v : V) (xs : List V) (w : σ) :
    g.lift.test v (xs, w) = ((g.test v w).1, (xs, (g.test v w).2)) := by
  unfold Stage.test Stage.lift
  cases g.cond <;> rfl

/-- An element which is dropped. -/
theorem serve_skip (pull : σ → Pull V E × σ) (gs : List (Stage σ V E)) (n k : ℕ) (w w1 : σ)
    (x : List (Pull V E) × σ) (h : first pull gs (n + 1) w = first pull gs n w1)
    (hs : serve pull gs n (k + 1) w1 = some x) : serve pull gs (n + 1) (k + 1) w = some x := by
  simp only [serve] at hs ⊢
  rw [h]
  cases hf : first pull gs n w1 with
  | none => rw [hf] at hs; simp at hs
  | some q =>
    obtain ⟨r, w2⟩ := q
    rw [hf] at hs
    cases r with
    | stop => exact hs
    | raise e => exact hs
    | yield v =>
      simp only at hs ⊢
      cases ht : serve pull gs n k w2 with
      | none => rw [ht] at hs; simp at hs
      | some q => rw [ht] at hs; rw [serve_mono pull gs n (n + 1) (by omega) k _ _ ht]; exact hs

/-- How a complete consumption ends. -/
def ending : Except E (List V) → List V → Pull V E → Prop
  | .ok us, vs, r => vs = us ∧ r = .stop
  | .error e, _, r => r = .raise e

theorem serve_listComp (g : Stage σ V E) : ∀ (xs : List V) (w : σ),
    ∃ n vs r rest, serve pullList [g.lift] n (vs.length + 1) (xs, w) =
      some (vs.map .yield ++ [r], (rest, (listComp g xs w).2)) ∧
      ending (listComp g xs w).1 vs r := by
  intro xs
  induction xs with
  | nil =>
    intro w
    exact ⟨1, [], .stop, [], by simp [serve, first, pullList, listComp], rfl, rfl⟩
  | cons x xs ih =>
    intro w
    have hx : through [g.lift] x (xs, w) = through [g.lift] x (xs, w) := rfl
    conv at hx => rhs; simp only [through, lift_test]
    cases ht : g.test x w with
    | mk a w1 =>
      rw [ht] at hx
      cases a with
      | error e =>
        refine ⟨1, [], .raise e, xs, ?_, ?_⟩
        · simp [serve, first, pullList, hx, listComp, ht]
        · simp [listComp, ht, ending]
      | ok b =>
        cases b with
        | false =>
          obtain ⟨n, vs, r, rest, h1, h2⟩ := ih w1
          have hl : listComp g (x :: xs) w = listComp g xs w1 := by simp [listComp, ht]
          rw [hl]
          refine ⟨n + 1, vs, r, rest, serve_skip _ _ _ _ _ (xs, w1) _ ?_ h1, h2⟩
          simp [first, pullList, hx]
        | true =>
          simp only at hx
          cases hi : g.item x w1 with
          | mk c w2 =>
            have hi' : g.lift.item x (xs, w1) = (c, (xs, w2)) := by simp [Stage.lift, hi]
            rw [hi'] at hx
            cases c with
            | error e =>
              refine ⟨1, [], .raise e, xs, ?_, ?_⟩
              · simp [serve, first, pullList, hx, listComp, ht, hi]
              · simp [listComp, ht, hi, ending]
            | ok u =>
              obtain ⟨n, vs, r, rest, h1, h2⟩ := ih w2
              have hs : serve pullList [g.lift] (n + 1) (vs.length + 1 + 1) (x :: xs, w) =
                  some (.yield u :: (vs.map .yield ++ [r]), (rest, (listComp g xs w2).2)) := by
                have := serve_mono pullList [g.lift] n (n + 1) (by omega) _ _ _ h1
                rw [serve]
                simp only [first, pullList, hx]
                rw [this]
              refine ⟨n + 1, u :: vs, r, rest, ?_, ?_⟩
              · have e2 : (listComp g (x :: xs) w).2 = (listComp g xs w2).2 := by
                  simp only [listComp, ht, hi]
                  cases listComp g xs w2 with
                  | mk a w3 => cases a <;> rfl
                rw [e2]
                exact hs
              · simp only [listComp, ht, hi]
                cases hl : listComp g xs w2 with
                | mk a w3 =>
                  rw [hl] at h2
                  cases a with
                  | error e => exact h2
                  | ok us => exact ⟨by rw [h2.1], h2.2⟩

/-- **C54**: a generator over a list, consumed to its end, gives the items of the list comprehension
with the same item and condition, in the same order, with the same effects in the same order; if the
list comprehension raises, the generator gives some items and then raises the same exception, after
the same effects. -/
theorem C54_drained (g : Stage σ V E) (xs : List V) (w : σ) :
    ∃ n vs r rest gs', takes pullList n (vs.length + 1) (fresh [g.lift]) (xs, w) =
      some (vs.map .yield ++ [r], gs', (rest, (listComp g xs w).2)) ∧
      (∀ us, (listComp g xs w).1 = .ok us → vs = us ∧ r = .stop) ∧
      (∀ e, (listComp g xs w).1 = .error e → r = .raise e) := by
  obtain ⟨n, vs, r, rest, h1, h2⟩ := serve_listComp g xs w
  obtain ⟨m, gs', h3⟩ := (C54_on_demand pullList [g.lift] (by simp) _ _ _ _).2 ⟨n, h1⟩
  refine ⟨m, vs, r, rest, gs', h3, ?_, ?_⟩
  · intro us e; rw [e] at h2; exact h2
  · intro us e; rw [e] at h2; exact h2

/-- A stage without effects: `f` for items passing `p`. -/
def Stage.pure (f : V → V) (p : V → Bool) : Stage σ V E where
  item v w := (.ok (f v), w)
  cond := some fun v w => (.ok (p v), w)

/-- The items of chained comprehensions over a list, the outermost comprehension first. -/
def chain : List ((V → V) × (V → Bool)) → List V → List V
  | [], xs => xs
  | (f, p) :: rest, xs => ((chain rest xs).filter p).map f

/-- One element. -/
def chain1 : List ((V → V) × (V → Bool)) → V → Option V
  | [], v => some v
  | (f, p) :: rest, v => (chain1 rest v).bind fun u => if p u then some (f u) else none

theorem chain_eq (fs : List ((V → V) × (V → Bool))) (xs : List V) :
    chain fs xs = xs.filterMap (chain1 fs) := by
  induction fs with
  | nil => simp only [chain]; exact (List.filterMap_some (l := xs)).symm
  | cons fp fs ih =>
    obtain ⟨f, p⟩ := fp
    simp only [chain, ih]
    clear ih
    induction xs with
    | nil => rfl
    | cons x xs ihx =>
      have e : chain1 ((f, p) :: fs) x = (chain1 fs x).bind fun u => if p u then some (f u) else none :=
        rfl
      rw [List.filterMap_cons, List.filterMap_cons, e]
      cases chain1 fs x with
      | none => exact ihx
      | some u => cases hp : p u <;> simp [hp, ihx]

theorem through_pure (fs : List ((V → V) × (V → Bool))) (v : V) (w : σ) :
    through (E := E) (fs.map fun fp => Stage.pure fp.1 fp.2) v w = (.ok (chain1 fs v), w) := by
  induction fs with
  | nil => rfl
  | cons fp fs ih =>
    simp only [List.map_cons, through, ih, chain1]
    cases chain1 fs v with
    | none => rfl
    | some u => cases hp : fp.2 u <;> simp [Stage.test, Stage.pure, hp]

/-- **C54**: chained generators without effects, over a list, give the items of the chained list
comprehensions. -/
theorem C54_chain (fs : List ((V → V) × (V → Bool))) (hne : fs ≠ []) (xs : List V) (w : σ) :
    ∃ n gs', takes (E := E) pullList n ((chain fs xs).length + 1)
      (fresh (fs.map fun fp => Stage.pure fp.1 fp.2)) (xs, w) =
      some ((chain fs xs).map .yield ++ [.stop], gs', ([], w)) := by
  refine (C54_on_demand pullList _ (by simpa using hne) _ _ _ _).2 ?_
  rw [chain_eq]
  induction xs with
  | nil => exact ⟨1, by simp [serve, first, pullList]⟩
  | cons x xs ih =>
    obtain ⟨n, h⟩ := ih
    refine ⟨n + 1, ?_⟩
    have ht := through_pure (E := E) fs x (xs, w)
    cases hc : chain1 fs x with
    | none =>
      rw [hc] at ht
      rw [List.filterMap_cons_none hc]
      exact serve_skip _ _ _ _ _ (xs, w) _ (by simp [first, pullList, ht]) h
    | some u =>
      rw [hc] at ht
      rw [List.filterMap_cons_some hc]
      have := serve_mono pullList _ n (n + 1) (by omega) _ _ _ h
      rw [List.length_cons, serve]
      simp only [first, pullList, ht]
      rw [this]
      rfl

/-! ## Concrete cases -/

/-- A log of calls as the state; the innermost stage doubles, the outer one keeps what is not 4. -/
def exStages : List (Stage (List (String × ℕ)) ℕ String) :=
  [⟨fun v w => (.ok (v + 1), w ++ [("out", v)]), some fun v w => (.ok (v != 4), w ++ [("keep", v)])⟩,
   ⟨fun v w => (.ok (2 * v), w ++ [("dbl", v)]), none⟩]

/-- Counting up endlessly: the number of pulls is the number of `"src"` entries. -/
def exPull (w : List (String × ℕ)) : Pull ℕ String × List (String × ℕ) :=
  let i := (w.filter fun e => e.1 == "src").length
  (.yield i, w ++ [("src", i)])

/-- Three values of an endless input: four elements are taken (the third, 2, is dropped), and the
calls are interleaved. -/
example : (takes exPull 10 3 (fresh exStages) []).map (fun x => (x.1, x.2.2)) =
    some ([.yield 1, .yield 3, .yield 7],
      [("src", 0), ("dbl", 0), ("keep", 0), ("out", 0), ("src", 1), ("dbl", 1), ("keep", 2),
       ("out", 2), ("src", 2), ("dbl", 2), ("keep", 4), ("src", 3), ("dbl", 3), ("keep", 6),
       ("out", 6)]) := by decide +kernel

/-- An exception in the middle: nothing more is given. -/
example : (takes (E := String) pullList 10 4
    (fresh [⟨fun v s => if v = 2 then (.error "two", s) else (.ok v, s), none⟩]) ([1, 2, 3], ())).map
      (fun x => (x.1, x.2.2)) = some ([.yield 1, .raise "two", .stop, .stop], ([3], ())) := by
  decide +kernel

end Verif.Lazy
