import Verif.JoinGen.Main

/-!
# Left rows are read when they are needed
-/

set_option autoImplicit false

namespace Verif.JoinGen

open Verif Verif.Lazy

variable {τ A K E : Type}

/-- Something that leaves the left rows alone. -/
def aside {T : Type} (f : τ → T × τ) (w : List A × τ) : T × (List A × τ) := ((f w.2).1, (w.1, (f w.2).2))

/-- A join whose left input is an iterator over a list, which nothing else uses. -/
def overList (c : Code τ A K E) : Code (List A × τ) A K E where
  kind := c.kind
  pullL := fun w => match w.1 with
    | [] => (.stop, w)
    | l :: ls => (.yield l, (ls, w.2))
  pullR := aside c.pullR
  rows := c.rows
  pre := c.pre.map aside
  leftFilter := c.leftFilter.map fun f l => aside (f l)
  rightFilter := c.rightFilter.map fun f l => aside (f l)
  keys := c.keys.map fun p => (fun l => aside (p.1 l), fun r => aside (p.2 r))
  cond := c.cond.map fun f l r => aside (f l r)
  none_ := c.none_

/-- The state of a join with its left rows. -/
def World.with (ls : List A) (W : World τ) : World (List A × τ) := ⟨W.right, W.closed, (ls, W.st)⟩

theorem test_aside (f : Option (A → τ → Except E Bool × τ)) (x : A) (ls : List A) (t : τ) :
    test (f.map fun f l => aside (f l)) x (ls, t) = aside (test f x) (ls, t) := by
  cases f <;> rfl

theorem holds_aside (c : Code τ A K E) (l r : A) (ls : List A) (t : τ) :
    (overList c).holds l r (ls, t) = aside (c.holds l r) (ls, t) := by
  cases h : c.cond <;> simp [Code.holds, overList, aside, h]

theorem collect_aside {T : Type} (c : Code τ A K E) (f : A → τ → Except E T × τ) (ls : List A) :
    ∀ (m : ℕ) (t : τ), collect (overList c) (fun x => aside (f x)) m (ls, t) =
      ((collect c f m t).1, (collect c f m t).2.1, (ls, (collect c f m t).2.2)) := by
  intro m
  induction m with
  | zero => intro t; rfl
  | succ m ih =>
    intro t
    simp only [collect]
    have hp : (overList c).pullR (ls, t) = ((c.pullR t).1, (ls, (c.pullR t).2)) := rfl
    rw [hp]
    rcases c.pullR t with ⟨r | _ | e, t1⟩
    · dsimp only
      have ht : test (overList c).rightFilter r (ls, t1) = aside (test c.rightFilter r) (ls, t1) :=
        test_aside _ _ _ _
      rw [ht, aside]
      rcases test c.rightFilter r t1 with ⟨_ | b, t2⟩
      · rfl
      · cases b
        · exact ih t2
        · simp only [aside]
          rcases f r t2 with ⟨_ | x, t3⟩
          · rfl
          · dsimp only
            rw [ih t3]
            rcases collect c f m t3 with ⟨_ | _ | _, m', t4⟩ <;> rfl
    · rfl
    · rfl

theorem withKeys_aside (key : A → τ → Except E K × τ) (ls : List A) : ∀ (rows : List A) (t : τ),
    withKeys (fun x => aside (key x)) rows (ls, t) = aside (withKeys key rows) (ls, t) := by
  intro rows
  induction rows with
  | nil => intro t; rfl
  | cons r rows ih =>
    intro t
    simp only [withKeys, aside]
    rcases key r t with ⟨_ | k, t1⟩
    · rfl
    · dsimp only
      rw [ih t1, aside]
      rcases withKeys key rows t1 with ⟨_ | _, t2⟩ <;> rfl

theorem readRight_aside (c : Code τ A K E) (ls : List A) (m : ℕ) (t : τ) :
    readRight (overList c) m (ls, t) =
      ((readRight c m t).1, (readRight c m t).2.1, (ls, (readRight c m t).2.2)) := by
  have h1 := collect_aside c (asIs (E := E)) ls m t
  have h0 : (fun x => aside (asIs (E := E) (σ := τ) x)) = (asIs : A → List A × τ → Except E A × _) := rfl
  rw [h0] at h1
  unfold readRight
  have hk : (overList c).kind = c.kind := rfl
  have hr : (overList c).rows = c.rows := rfl
  have hf : (overList c).rightFilter = c.rightFilter.map fun f l => aside (f l) := rfl
  have hks : (overList c).keys = c.keys.map fun p => (fun l => aside (p.1 l), fun r => aside (p.2 r)) :=
    rfl
  rw [hk, hks]
  by_cases ho : c.kind = .outer
  · simp only [ho, if_true]
    rw [h1]
    rcases collect c asIs m t with ⟨rows | _ | _, m1, t1⟩
    · dsimp only
      rcases c.keys with _ | ⟨k1, k2⟩
      · rfl
      · simp only [Option.map_some]
        rw [withKeys_aside, aside]
        rcases withKeys k2 rows t1 with ⟨_ | _, t2⟩ <;> rfl
    · rfl
    · rfl
  · simp only [ho, if_false]
    rcases c.keys with _ | ⟨k1, k2⟩
    · simp only [Option.map_none]
      rw [hr, hf]
      rcases c.rows with _ | rows
      · rfl
      · rcases c.rightFilter with _ | f <;> rfl
    · simp only [Option.map_some]
      have h2 := collect_aside c (keyed k2) ls m t
      have h3 : (fun x => aside (keyed k2 x)) =
          (keyed (fun r => aside (k2 r)) : A → List A × τ → Except E (K × A) × _) := by
        funext x w
        simp only [keyed, aside]
        rcases k2 x w.2 with ⟨_ | _, t2⟩ <;> rfl
      rw [h3] at h2
      rw [h2]
      rcases collect c (keyed k2) m t with ⟨_ | _ | _, m1, t1⟩ <;> rfl

theorem eachRow_aside (c : Code τ A K E) (l : A) (act : A → τ → Flow E × τ) (ls : List A) :
    ∀ (rs : List A) (t : τ), eachRow (overList c) l (fun r => aside (act r)) rs (ls, t) =
      ((eachRow c l act rs t).1, (eachRow c l act rs t).2.1, (ls, (eachRow c l act rs t).2.2)) := by
  intro rs
  induction rs with
  | nil => intro t; rfl
  | cons r rs ih =>
    intro t
    simp only [eachRow]
    rw [holds_aside, aside]
    rcases c.holds l r t with ⟨_ | b, t1⟩
    · rfl
    · cases b
      · exact ih t1
      · simp only [aside]
        rcases act r t1 with ⟨_ | _ | _, t2⟩
        · dsimp only; rw [ih t2]
        · rfl
        · rfl

theorem eachShared_aside (c : Code τ A K E) (l : A) (act : A → τ → Flow E × τ) (ls : List A) :
    ∀ (m : ℕ) (t : τ), eachShared (overList c) l (fun r => aside (act r)) m (ls, t) =
      ((eachShared c l act m t).1, (eachShared c l act m t).2.1, (eachShared c l act m t).2.2.with ls) := by
  intro m
  induction m with
  | zero => intro t; rfl
  | succ m ih =>
    intro t
    simp only [eachShared]
    have hp : (overList c).pullR (ls, t) = ((c.pullR t).1, (ls, (c.pullR t).2)) := rfl
    rw [hp]
    rcases c.pullR t with ⟨r | _ | e, t1⟩
    · dsimp only
      have ht : test (overList c).rightFilter r (ls, t1) = aside (test c.rightFilter r) (ls, t1) :=
        test_aside _ _ _ _
      rw [ht, aside]
      rcases test c.rightFilter r t1 with ⟨_ | b, t2⟩
      · rfl
      · cases b
        · exact ih t2
        · dsimp only
          rw [holds_aside, aside]
          rcases c.holds l r t2 with ⟨_ | b, t3⟩
          · rfl
          · cases b
            · exact ih t3
            · simp only [aside]
              rcases act r t3 with ⟨_ | _ | _, t4⟩
              · dsimp only; rw [ih t4]
              · rfl
              · rfl
    · rfl
    · rfl

theorem eachMatch_aside [BEq K] (c : Code τ A K E) (right : Right A K) (l : A)
    (act : A → τ → Flow E × τ) (ls : List A) (W : World τ) :
    eachMatch (overList c) right l (fun r => aside (act r)) (W.with ls) =
      ((eachMatch c right l act W).1, (eachMatch c right l act W).2.1,
        (eachMatch c right l act W).2.2.with ls) := by
  obtain ⟨m, cl, t⟩ := W
  cases right with
  | rows rs =>
    simp only [eachMatch, World.with]
    rw [eachRow_aside]
  | stream =>
    simp only [eachMatch, World.with]
    have hf : (overList c).rightFilter.isSome = c.rightFilter.isSome := by
      simp [overList]
    rw [hf]
    by_cases hc : (cl && c.rightFilter.isSome) = true
    · simp only [hc, if_true]
    · simp only [hc, Bool.false_eq_true, if_false]
      rw [eachShared_aside]; rfl
  | keyed ks =>
    simp only [eachMatch, World.with]
    have hks : (overList c).keys = c.keys.map fun p => (fun l => aside (p.1 l), fun r => aside (p.2 r)) :=
      rfl
    rw [hks]
    rcases c.keys with _ | ⟨k1, k2⟩
    · rfl
    · simp only [Option.map_some, aside]
      rcases k1 l t with ⟨_ | k, t1⟩
      · rfl
      · dsimp only
        rw [show (fun r => aside (act r)) = (fun r w => aside (act r) w) from rfl]
        have := eachRow_aside c l act ls ((ks.filter (fun p => p.1 == k)).map Prod.snd) t1
        rw [this]

/-- The outer loop, when it ends before the left rows do, is not concerned by what follows them. -/
theorem eachLeft_more [BEq K] (c : Code τ A K E) (right : Right A K) (body : A × A → τ → Flow E × τ)
    (rest : List A) : ∀ (n : ℕ) (ls : List A) (W : World τ),
    (eachLeft (overList c) right (fun p => aside (body p)) n (W.with ls)).1 ≠ .done →
    ∃ e given ls' W', eachLeft (overList c) right (fun p => aside (body p)) n (W.with ls) =
        (e, given, World.with ls' W') ∧
      eachLeft (overList c) right (fun p => aside (body p)) n (W.with (ls ++ rest)) =
        (e, given, World.with (ls' ++ rest) W') := by
  intro n
  induction n with
  | zero => intro ls W _; exact ⟨.out, [], ls, W, rfl, rfl⟩
  | succ n ih =>
    intro ls W h
    cases ls with
    | nil => exact (h rfl).elim
    | cons l ls =>
      have hp : ∀ ys : List A, (overList c).pullL (W.with (l :: ys)).st = (.yield l, (ys, W.st)) :=
        fun _ => rfl
      have ht : ∀ ys : List A, test (overList c).leftFilter l (ys, W.st) =
          aside (test c.leftFilter l) (ys, W.st) := fun ys => test_aside _ _ _ _
      simp only [eachLeft, hp, List.cons_append, ht, aside] at h ⊢
      rcases htest : test c.leftFilter l W.st with ⟨e | b, t1⟩
      · exact ⟨.raise e, [], ls, ⟨W.right, W.closed, t1⟩, rfl, rfl⟩
      · rw [htest] at h
        cases b
        · exact ih ls ⟨W.right, W.closed, t1⟩ h
        · dsimp only at h ⊢
          have hm : ∀ ys : List A, eachMatch (overList c) right l (fun r w =>
              ((body (c.kind.pair l r) w.2).1, (w.1, (body (c.kind.pair l r) w.2).2)))
              ⟨W.right, W.closed, (ys, t1)⟩ = _ := fun ys => eachMatch_aside c right l
            (fun r w => body (c.kind.pair l r) w) ys ⟨W.right, W.closed, t1⟩
          have hk : (overList c).kind = c.kind := rfl
          simp only [World.with] at hm
          simp only [hk, World.with] at h ⊢
          rw [hm] at h
          rw [hm, hm]
          clear hm
          revert h
          rcases eachMatch c right l (fun r w => body (c.kind.pair l r) w)
            ⟨W.right, W.closed, t1⟩ with ⟨e, ms, W3⟩
          intro h
          cases e with
          | brk => exact ⟨.brk, ms, ls, W3, rfl, rfl⟩
          | raise e => exact ⟨.raise e, ms, ls, W3, rfl, rfl⟩
          | out => exact ⟨.out, ms, ls, W3, rfl, rfl⟩
          | done =>
            cases ms with
            | nil =>
              have hl : ∀ ys : List A, lonely (overList c)
                  (fun p => aside (body p)) l (ys, W3.st) =
                  ((lonely c body l W3.st).1, (ys, (lonely c body l W3.st).2)) := by
                intro ys
                simp only [lonely, hk]
                split <;> rfl
              dsimp only at h ⊢
              rw [hl] at h
              rw [hl, hl]
              clear hl
              revert h
              rcases lonely c body l W3.st with ⟨_ | _ | e, t4⟩ <;> intro h
              · dsimp only at h ⊢
                obtain ⟨e, given, ls', W', h1, h2⟩ := ih ls ⟨W3.right, W3.closed, t4⟩ h
                simp only [World.with] at h1 h2
                rw [h1, h2]
                exact ⟨e, c.none_ :: given, ls', W', rfl, rfl⟩
              · exact ⟨.brk, [c.none_], ls, ⟨W3.right, W3.closed, t4⟩, rfl, rfl⟩
              · exact ⟨.raise e, [c.none_], ls, ⟨W3.right, W3.closed, t4⟩, rfl, rfl⟩
            | cons m ms =>
              dsimp only at h ⊢
              obtain ⟨e, given, ls', W', h1, h2⟩ := ih ls W3 h
              simp only [World.with] at h1 h2
              rw [h1, h2]
              exact ⟨e, m :: ms ++ given, ls', W', rfl, rfl⟩

/-- The outer loop ends by itself only when there are no left rows any more. -/
theorem eachLeft_done [BEq K] (c : Code τ A K E) (right : Right A K) (body : A × A → τ → Flow E × τ) :
    ∀ (n : ℕ) (ls : List A) (W : World τ) (given : List A) (W' : World (List A × τ)),
    eachLeft (overList c) right (fun p => aside (body p)) n (W.with ls) = (.done, given, W') →
    W'.st.1 = [] := by
  intro n
  induction n with
  | zero => intro ls W given W' h; simp [eachLeft] at h
  | succ n ih =>
    intro ls W given W' h
    cases ls with
    | nil =>
      have hp : (overList c).pullL (W.with ([] : List A)).st = (.stop, ([], W.st)) := rfl
      simp only [eachLeft, hp, Prod.mk.injEq] at h
      rw [← h.2.2]
    | cons l ls =>
      have hp : (overList c).pullL (W.with (l :: ls)).st = (.yield l, (ls, W.st)) := rfl
      have ht : test (overList c).leftFilter l (ls, W.st) =
          aside (test c.leftFilter l) (ls, W.st) := test_aside _ _ _ _
      simp only [eachLeft, hp, ht, aside] at h
      revert h
      rcases test c.leftFilter l W.st with ⟨e | b, t1⟩ <;> intro h
      · simp at h
      · cases b
        · exact ih ls ⟨W.right, W.closed, t1⟩ given W' h
        · have hm : eachMatch (overList c) right l (fun r w =>
              ((body (c.kind.pair l r) w.2).1, (w.1, (body (c.kind.pair l r) w.2).2)))
              ⟨W.right, W.closed, (ls, t1)⟩ = _ := eachMatch_aside c right l
            (fun r w => body (c.kind.pair l r) w) ls ⟨W.right, W.closed, t1⟩
          have hk : (overList c).kind = c.kind := rfl
          simp only [World.with] at hm
          simp only [hk, World.with] at h
          rw [hm] at h
          clear hm
          revert h
          rcases eachMatch c right l (fun r w => body (c.kind.pair l r) w)
            ⟨W.right, W.closed, t1⟩ with ⟨e, ms, W3⟩
          intro h
          cases e with
          | brk => simp at h
          | raise e => simp at h
          | out => simp at h
          | done =>
            cases ms with
            | nil =>
              have hl : lonely (overList c) (fun p => aside (body p)) l (ls, W3.st) =
                  ((lonely c body l W3.st).1, (ls, (lonely c body l W3.st).2)) := by
                simp only [lonely, hk]
                split <;> rfl
              dsimp only at h
              rw [hl] at h
              clear hl
              revert h
              rcases lonely c body l W3.st with ⟨_ | _ | e, t4⟩ <;> intro h
              · dsimp only at h
                have h2 := ih ls ⟨W3.right, W3.closed, t4⟩
                simp only [World.with] at h2
                revert h h2
                rcases eachLeft (overList c) right (fun p => aside (body p)) n
                  ⟨W3.right, W3.closed, (ls, t4)⟩ with ⟨e, given', W5⟩
                intro h h2
                simp only [Prod.mk.injEq] at h
                obtain ⟨rfl, -, rfl⟩ := h
                exact h2 given' _ rfl
              · simp at h
              · simp at h
            | cons m ms =>
              dsimp only at h
              have h2 := ih ls W3
              simp only [World.with] at h2
              revert h h2
              rcases eachLeft (overList c) right (fun p => aside (body p)) n
                ⟨W3.right, W3.closed, (ls, W3.st)⟩ with ⟨e, given', W5⟩
              intro h h2
              simp only [Prod.mk.injEq] at h
              obtain ⟨rfl, -, rfl⟩ := h
              exact h2 given' _ rfl

theorem eachUnmatched_aside [DecidableEq A] (c : Code τ A K E) (body : A × A → τ → Flow E × τ)
    (given : List A) : ∀ (xs ls : List A) (t : τ),
    (eachUnmatched (overList c) (fun p => aside (body p)) given xs (ls, t)).2.1 = ls := by
  intro xs
  induction xs with
  | nil => intro ls t; rfl
  | cons x xs ih =>
    intro ls t
    simp only [eachUnmatched]
    have hn : (overList c).none_ = c.none_ := rfl
    rw [hn]
    by_cases hx : x ∈ given
    · simp only [hx, if_true]; exact ih ls t
    · simp only [hx, if_false, aside]
      rcases body (c.none_, x) t with ⟨_ | _ | _, t1⟩
      · exact ih ls t1
      · rfl
      · rfl

/-- The loops, when they end before the left rows do, are not concerned by what follows them. -/
theorem loops_more [DecidableEq A] [BEq K] (c : Code τ A K E)
    (body : A × A → τ → Flow E × τ) (n m : ℕ) (ls rest : List A) (t : τ) (e : End E) (ls' : List A)
    (t' : τ) (he : e ≠ .done) (hk : c.kind ≠ .outer ∨ ls' ≠ [])
    (h : loops (overList c) (fun p => aside (body p)) n m (ls, t) = (e, (ls', t'))) :
    loops (overList c) (fun p => aside (body p)) n m (ls ++ rest, t) = (e, (ls' ++ rest, t')) := by
  unfold loops at h ⊢
  have hp : ∀ ys : List A, (overList c).pretest (ys, t) = aside c.pretest (ys, t) := by
    intro ys
    simp only [Code.pretest, overList, aside]
    cases c.pre <;> rfl
  rw [hp] at h ⊢
  simp only [aside] at h ⊢
  revert h
  rcases c.pretest t with ⟨e' | b, t1⟩ <;> intro h
  · simp only [Prod.mk.injEq] at h
    obtain ⟨rfl, rfl, rfl⟩ := h; rfl
  · cases b
    · simp only [Prod.mk.injEq] at h
      exact (he h.1.symm).elim
    · dsimp only at h ⊢
      rw [readRight_aside] at h ⊢
      have hrows : c.kind ≠ .outer → ∀ r rows, (readRight c m t1).1 = .ok (r, rows) → rows = [] := by
        intro hk r rows
        simp only [readRight, hk, if_false]
        rcases c.keys with _ | ⟨k1, k2⟩
        · dsimp only
          rcases c.rows with _ | rows' <;> rcases c.rightFilter with _ | f <;> (simp; try grind)
        · dsimp only
          rcases collect c (keyed k2) m t1 with ⟨_ | _ | _, m1, t2⟩ <;> (simp; try grind)
      revert h hrows
      rcases readRight c m t1 with ⟨⟨right, rows⟩ | e' | _, m1, t2⟩ <;> intro h hrows
      · dsimp only at h ⊢
        have hm := eachLeft_more c right body rest n ls ⟨m1, false, t2⟩
        simp only [World.with] at hm
        rcases hel : eachLeft (overList c) right (fun p => aside (body p)) n
          ⟨m1, false, (ls, t2)⟩ with ⟨e', given, W'⟩
        rw [hel] at h hm
        by_cases hd : e' = .done
        · subst hd
          dsimp only at h
          rcases hk with hk | hk
          · have hr := hrows hk right rows rfl
            subst hr
            simp only [eachUnmatched, Prod.mk.injEq] at h
            exact (he h.1.symm).elim
          · have h1 := eachLeft_done c right body n ls ⟨m1, false, t2⟩ given W' hel
            obtain ⟨mr, cl, ls3, t3⟩ := W'
            have h2 := eachUnmatched_aside c body given rows ls3 t3
            dsimp only at h1 h
            rw [h] at h2
            exact (hk (h2.trans h1)).elim
        · obtain ⟨e2, given2, ls2, W2, h1, h2⟩ := hm hd
          simp only [Prod.mk.injEq] at h1
          obtain ⟨rfl, rfl, rfl⟩ := h1
          rw [h2]
          cases e' with
          | done => exact (hd rfl).elim
          | brk =>
            simp only [Prod.mk.injEq] at h
            obtain ⟨rfl, rfl, rfl⟩ := h; rfl
          | raise e =>
            simp only [Prod.mk.injEq] at h
            obtain ⟨rfl, rfl, rfl⟩ := h; rfl
          | out =>
            simp only [Prod.mk.injEq] at h
            obtain ⟨rfl, rfl, rfl⟩ := h; rfl
      · simp only [Prod.mk.injEq] at h
        obtain ⟨rfl, rfl, rfl⟩ := h; rfl
      · simp only [Prod.mk.injEq] at h
        obtain ⟨rfl, rfl, rfl⟩ := h; rfl

end Verif.JoinGen
