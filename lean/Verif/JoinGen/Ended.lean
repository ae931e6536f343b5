import Verif.JoinGen.Model

/-!
# A generator which has ended stays ended
-/

set_option autoImplicit false

namespace Verif.JoinGen

open Verif Verif.Lazy

variable {σ A K E : Type}

/-- `next` raised `StopIteration` or another exception. -/
def Step.ended {T : Type} : Step T E → Bool
  | .yield _ => false
  | .stop => true
  | .raise _ => true
  | .out => false

theorem innerTop_over [BEq K] (c : Code σ A K E) (src : Source A K) : ∀ (n : ℕ) (W : World σ),
    (innerTop c src n W).1.ended = true → (innerTop c src n W).2.1 = .over := by
  intro n
  induction n with
  | zero => intro W h; cases h
  | succ n ih =>
    intro W
    simp only [innerTop]
    rcases c.pullL W.st with ⟨l | _ | e, w1⟩
    · dsimp only
      rcases test c.leftFilter l w1 with ⟨_ | b, w2⟩
      · intro _; rfl
      · cases b
        · exact ih _
        · dsimp only
          rcases c.itemsOf src l w2 with ⟨_ | it, w3⟩
          · intro _; rfl
          · dsimp only
            rcases scan c l it ⟨W.right, W.closed, w3⟩ with ⟨_ | _ | _ | _, W4⟩
            · intro h; cases h
            · exact ih _
            · intro _; rfl
            · intro _; rfl
    · intro _; rfl
    · intro _; rfl

theorem innerNext_over [BEq K] (c : Code σ A K E) (src : Source A K) (s : InnerState A) (n : ℕ) (W : World σ)
    (h : (innerNext c src s n W).1.ended = true) : (innerNext c src s n W).2.1 = .over := by
  revert h
  unfold innerNext
  cases s with
  | top => exact innerTop_over c src n W
  | over => intro _; rfl
  | row l it =>
    dsimp only
    rcases scan c l it W with ⟨_ | _ | _ | _, W1⟩
    · intro h; cases h
    · exact innerTop_over c src n W1
    · intro _; rfl
    · intro _; rfl

/-- The generator of joins.py 333-341 stays ended. -/
theorem outerNext_ended [BEq K] (c : Code σ A K E) (src : Source A K) (o : Outer A) (n : ℕ) (W : World σ)
    (h : (outerNext c src o n W).1.ended = true) (n' : ℕ) (W' : World σ) :
    outerNext c src (outerNext c src o n W).2.1 n' W' = (.stop, (outerNext c src o n W).2.1, n', W') := by
  have key : ∀ (n : ℕ) (W : World σ), (outerLoop c src n W).1.ended = true →
      (outerLoop c src n W).2.1.finished = true := by
    intro n
    induction n with
    | zero => intro W h; cases h
    | succ n ih =>
      intro W
      simp only [outerLoop]
      rcases c.pullL W.st with ⟨l | _ | e, w1⟩
      · dsimp only
        rcases test c.leftFilter l w1 with ⟨_ | b, w2⟩
        · intro _; rfl
        · cases b
          · exact ih _
          · dsimp only
            rcases c.itemsOf src l w2 with ⟨_ | it, w3⟩
            · intro _; rfl
            · intro h; cases h
      · intro _; rfl
      · intro _; rfl
  by_cases ho : o.finished = true
  · simp [outerNext, ho]
  · have e : ∀ (n : ℕ) (W : World σ), outerNext c src o n W = outerLoop c src n W := by
      intro n W; simp [outerNext, ho]
    rw [e] at h ⊢
    simp [outerNext, key n W h]

theorem joinerTop_over [BEq K] (c : Code σ A K E) (src : Source A K) (sw : Bool) (o : Outer A) (n : ℕ)
    (W : World σ) (h : (joinerTop c src sw o n W).1.ended = true) : (joinerTop c src sw o n W).2.1.at_ = .over := by
  revert h
  unfold joinerTop
  rcases outerNext c src o n W with ⟨⟨l, ones⟩ | _ | _ | _, o1, n1, W1⟩
  · dsimp only
    rcases innerGen c o1 ones W1 with ⟨_ | _ | _ | _, _, W2⟩
    · intro h; cases h
    · intro h; cases h
    · intro _; rfl
    · intro _; rfl
  · intro _; rfl
  · intro _; rfl
  · intro _; rfl

theorem joinerNext_over [BEq K] (c : Code σ A K E) (src : Source A K) (sw : Bool) (s : JoinerState A) (n : ℕ)
    (W : World σ) (h : (joinerNext c src sw s n W).1.ended = true) : (joinerNext c src sw s n W).2.1.at_ = .over := by
  revert h
  unfold joinerNext
  cases hs : s.at_ with
  | over => intro _; exact hs
  | top => exact joinerTop_over c src sw _ n W
  | row l ones =>
    dsimp only
    rcases innerGen c s.gen ones W with ⟨_ | _ | _ | _, _, W1⟩
    · intro h; cases h
    · exact joinerTop_over c src sw _ n W1
    · intro _; rfl
    · intro _; rfl

theorem addRest_over [DecidableEq A] (none_ : A) (seen : List A) : ∀ rows : List A,
    (addRest (E := E) none_ seen rows).1.ended = true → (addRest (E := E) none_ seen rows).2 = .over := by
  intro rows
  induction rows with
  | nil => intro _; rfl
  | cons r rows ih =>
    simp only [addRest]
    split
    · exact ih
    · intro h; cases h

theorem addNext_over [DecidableEq A] [BEq K] (c : Code σ A K E) (src : Source A K) (rows : List A) (s : AddState A)
    (n : ℕ) (W : World σ) (h : (addNext c src rows s n W).1.ended = true) :
    (addNext c src rows s n W).2.1 = .over := by
  revert h
  unfold addNext
  cases s with
  | over => intro _; rfl
  | second seen rest => exact addRest_over c.none_ seen rest
  | first s seen =>
    dsimp only
    rcases joinerNext c src false s n W with ⟨_ | _ | _ | _, s', n1, W1⟩
    · intro h; cases h
    · exact addRest_over c.none_ seen rows
    · intro _; rfl
    · intro _; rfl

/-- C59.  After the generator of a join has ended, by `StopIteration` or because something raised, every further
`next` raises `StopIteration` and touches nothing: no input is pulled, no conversion runs. -/
theorem C59_ended [DecidableEq A] [BEq K] (c : Code σ A K E) (src : Source A K) (rows : List A) (g : Gen A) (n : ℕ)
    (W : World σ) (h : (next c src rows g n W).1.ended = true) (n' : ℕ) (W' : World σ) :
    next c src rows (next c src rows g n W).2.1 n' W' = (.stop, (next c src rows g n W).2.1, n', W') := by
  cases g with
  | inner s =>
    have := innerNext_over c src s n W h
    revert this
    simp only [next]
    rcases innerNext c src s n W with ⟨r, s', n1, W1⟩
    intro h'
    simp only at h'
    subst h'
    rfl
  | left sw s =>
    have := joinerNext_over c src sw s n W h
    revert this
    simp only [next]
    rcases joinerNext c src sw s n W with ⟨r, ⟨a, o⟩, n1, W1⟩
    intro h'
    simp only at h'
    subst h'
    rfl
  | outer s =>
    have := addNext_over c src rows s n W h
    revert this
    simp only [next]
    rcases addNext c src rows s n W with ⟨r, s', n1, W1⟩
    intro h'
    simp only at h'
    subst h'
    rfl

end Verif.JoinGen
