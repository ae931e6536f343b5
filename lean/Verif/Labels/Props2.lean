import Verif.Labels.Props

/-!
# C26: what a client sees at every moment, generators inside plain results included
-/

set_option autoImplicit false

namespace Verif.Labels

variable {V : Type}

/-- What the client of a call sees: as `wantCall`, but a generator inside a plain result starts without labels, for
they were dropped when the result was returned. -/
def seenCall (hist : List (String × V)) : CallProg V → List (Out V)
  | .ret v => [.returned v]
  | .fail => [.raised]
  | .retGen b => .gotGenerator :: wantGen hist b
  | .retHolding b => .gotHolder :: wantGen [] b
  | .add l v k => seenCall (hist ++ [(l, v)]) k
  | .get l k =>
    match latest hist l with
    | some v => seenCall hist (k v)
    | none => [.raised]

/-- What is still to be seen. -/
def seenSt (hist : List (String × V)) : St V → List (Out V)
  | .calling p => seenCall hist p
  | .suspended _ p => wantGen hist p
  | .running p => wantGen hist p
  | .held p => wantGen hist p
  | .heldRunning p => wantGen hist p
  | .over => []

theorem act_seen (labels : List (String × V)) (u : Use V) (hist : List (String × V))
    (hr : ∀ m, Dict.get? labels m = latest hist m) (a : Act) (ha : a ≠ .close) :
    ∃ hist', (∀ m, (act labels u a).2.st ≠ .over → Dict.get? (act labels u a).1 m = latest hist' m) ∧
      (act labels u a).2.out ++ seenSt hist' (act labels u a).2.st = u.out ++ seenSt hist u.st := by
  obtain ⟨st, out⟩ := u
  cases a with
  | close => exact absurd rfl ha
  | next => cases st <;> exact ⟨hist, fun m _ => hr m, rfl⟩
  | step =>
    cases st with
    | suspended s p => exact ⟨hist, fun m _ => hr m, rfl⟩
    | held p => exact ⟨hist, fun m _ => hr m, rfl⟩
    | over => exact ⟨hist, fun m _ => hr m, rfl⟩
    | calling p =>
      cases p with
      | ret v => exact ⟨hist, fun m h => absurd rfl h, by simp [act, seenSt, seenCall]⟩
      | fail => exact ⟨hist, fun m h => absurd rfl h, by simp [act, seenSt, seenCall]⟩
      | retGen b => exact ⟨hist, fun m _ => hr m, by simp [act, seenSt, seenCall]⟩
      | retHolding b => exact ⟨[], fun m _ => rfl, by simp [act, seenSt, seenCall]⟩
      | add l v k => exact ⟨hist ++ [(l, v)], fun m _ => rel_add hr l v m, by simp [act, seenSt, seenCall]⟩
      | get l k =>
        have hl := hr l
        cases hg : Dict.get? labels l with
        | none =>
          rw [hg] at hl
          exact ⟨hist, fun m h => absurd (by simp [act, hg]) h, by simp [act, hg, seenSt, seenCall, ← hl]⟩
        | some v =>
          rw [hg] at hl
          exact ⟨hist, fun m _ => by simpa [act, hg] using hr m, by simp [act, hg, seenSt, seenCall, ← hl]⟩
    | running p =>
      cases p with
      | done => exact ⟨hist, fun m h => absurd rfl h, by simp [act, seenSt, wantGen]⟩
      | fail => exact ⟨hist, fun m h => absurd rfl h, by simp [act, seenSt, wantGen]⟩
      | yield v k => exact ⟨hist, fun m _ => hr m, by simp [act, seenSt, wantGen]⟩
      | add l v k => exact ⟨hist ++ [(l, v)], fun m _ => rel_add hr l v m, by simp [act, seenSt, wantGen]⟩
      | get l k =>
        have hl := hr l
        cases hg : Dict.get? labels l with
        | none =>
          rw [hg] at hl
          exact ⟨hist, fun m h => absurd (by simp [act, hg]) h, by simp [act, hg, seenSt, wantGen, ← hl]⟩
        | some v =>
          rw [hg] at hl
          exact ⟨hist, fun m _ => by simpa [act, hg] using hr m, by simp [act, hg, seenSt, wantGen, ← hl]⟩
    | heldRunning p =>
      cases p with
      | done => exact ⟨hist, fun m _ => hr m, by simp [act, seenSt, wantGen]⟩
      | fail => exact ⟨hist, fun m _ => hr m, by simp [act, seenSt, wantGen]⟩
      | yield v k => exact ⟨hist, fun m _ => hr m, by simp [act, seenSt, wantGen]⟩
      | add l v k => exact ⟨hist ++ [(l, v)], fun m _ => rel_add hr l v m, by simp [act, seenSt, wantGen]⟩
      | get l k =>
        have hl := hr l
        cases hg : Dict.get? labels l with
        | none =>
          rw [hg] at hl
          exact ⟨hist, fun m _ => by simpa [act, hg] using hr m, by simp [act, hg, seenSt, wantGen, ← hl]⟩
        | some v =>
          rw [hg] at hl
          exact ⟨hist, fun m _ => by simpa [act, hg] using hr m, by simp [act, hg, seenSt, wantGen, ← hl]⟩

theorem act_over (labels : List (String × V)) (u : Use V) (h : u.st = .over) (a : Act) :
    act labels u a = (labels, u) := by
  obtain ⟨st, out⟩ := u
  cases h
  cases a <;> rfl

theorem alone_over_any (as : List Act) : ∀ (labels : List (String × V)) (u : Use V), u.st = .over →
    alone labels u as = (labels, u) := by
  induction as with
  | nil => intro labels u _; rfl
  | cons a as ih =>
    intro labels u h
    have e : alone labels u (a :: as) = alone (act labels u a).1 (act labels u a).2 as := rfl
    rw [e, act_over labels u h a]
    exact ih labels u h

theorem alone_seen (as : List Act) : ∀ (labels : List (String × V)) (u : Use V) (hist : List (String × V)),
    (∀ m, Dict.get? labels m = latest hist m) → Act.close ∉ as →
    ∃ hist', (alone labels u as).2.out ++ seenSt hist' (alone labels u as).2.st = u.out ++ seenSt hist u.st := by
  induction as with
  | nil => intro labels u hist _ _; exact ⟨hist, rfl⟩
  | cons a as ih =>
    intro labels u hist hr hn
    have e : alone labels u (a :: as) = alone (act labels u a).1 (act labels u a).2 as := rfl
    obtain ⟨h1, hr1, e1⟩ := act_seen labels u hist hr a (fun h => hn (by simp [h]))
    rw [e]
    by_cases ho : (act labels u a).2.st = .over
    · rw [alone_over_any as _ _ ho]
      exact ⟨h1, e1⟩
    · obtain ⟨h2, e2⟩ := ih (act labels u a).1 (act labels u a).2 h1 (fun m => hr1 m ho)
        (fun h => hn (List.mem_cons_of_mem _ h))
      exact ⟨h2, by rw [e2, e1]⟩

/-- **C26, at every moment**: whatever the client of a use has done so far (short of closing the generator), it has
seen a beginning of what `seenCall` says, and all of it when the use is over: every read of a label gives the value
labelled last by the same use, a read of a label which is not set raises.  The labels a call has set are seen by the
generator it returns, not by one inside a plain result (`C26_refuted_held`); such a one sees the labels it has set
itself. -/
theorem C26_at_every_moment (p : CallProg V) (as : List Act) (hn : Act.close ∉ as) :
    aloneOut p as <+: seenCall [] p ∧
      ((alone [] ⟨.calling p, []⟩ as).2.isOver → aloneOut p as = seenCall [] p) := by
  obtain ⟨h', e⟩ := alone_seen as [] ⟨.calling p, []⟩ [] (fun _ => rfl) hn
  simp only [List.nil_append, seenSt] at e
  refine ⟨⟨_, e⟩, fun ho => ?_⟩
  unfold Use.isOver at ho
  rw [ho] at e
  simpa [seenSt, aloneOut] using e

/-- Without generators inside plain results this is what is wanted. -/
theorem seen_want {p : CallProg V} (h : p.NoHolding) : ∀ hist, seenCall hist p = wantCall hist p := by
  induction h with
  | ret => intro hist; rfl
  | fail => intro hist; rfl
  | retGen => intro hist; rfl
  | add _ ih => intro hist; exact ih _
  | @get l k _ ih =>
    intro hist
    simp only [seenCall, wantCall]
    cases latest hist l with
    | none => rfl
    | some v => exact ih v hist

/-- A tuple with a generator which labels and reads on its own, after a label of the call. -/
example : aloneOut (.add "x" 1 (.retHolding (.add "y" 2 (.get "y" fun v => .yield v (.get "x" fun w => .yield w .done)))))
    [.step, .step, .next, .step, .step, .step, .next, .step] =
    ([.gotHolder, .yielded 2, .raised] : List (Out Nat)) := by decide

end Verif.Labels
