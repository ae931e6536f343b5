import Verif.Labels.Model
/-!
# C27 (no label survives a finished call) and C28 (independence of uses)
-/
set_option autoImplicit false

namespace Verif.Labels

variable {V : Type}

/-! ## C27 -/

/-- A use is over. -/
def Use.isOver (u : Use V) : Prop := u.st = .over

/-- The code returns no plain value with a generator inside. -/
inductive CallProg.NoHolding : CallProg V → Prop
  | ret {v} : NoHolding (.ret v)
  | fail : NoHolding .fail
  | retGen {b} : NoHolding (.retGen b)
  | add {l v k} : NoHolding k → NoHolding (.add l v k)
  | get {l k} : (∀ v, NoHolding (k v)) → NoHolding (.get l k)

/-- A state which is not that of a generator inside a plain result. -/
def St.Bare : St V → Prop
  | .held _ => True
  | .heldRunning _ => True
  | _ => False

/-- As a condition on the states of a use. -/
def St.NoHolding : St V → Prop
  | .calling p => p.NoHolding
  | .held _ => False
  | .heldRunning _ => False
  | _ => True

/-- The condition is kept. -/
theorem act_noHolding (labels : List (String × V)) (u : Use V) (a : Act) (h : u.st.NoHolding) :
    (act labels u a).2.st.NoHolding := by
  obtain ⟨st, out⟩ := u
  cases a with
  | step =>
    cases st with
    | calling p =>
      cases h with
      | ret => trivial
      | fail => trivial
      | retGen => trivial
      | add hk => exact hk
      | get hk =>
        simp only [act]
        split
        · exact hk _
        · trivial
    | running p =>
      cases p with
      | get l k => simp only [act]; split <;> trivial
      | _ => trivial
    | suspended s p => trivial
    | over => trivial
    | held p => exact h.elim
    | heldRunning p => exact h.elim
  | next =>
    cases st with
    | held p => exact h.elim
    | heldRunning p => exact h.elim
    | calling p => exact h
    | _ => trivial
  | close =>
    cases st with
    | held p => exact h.elim
    | heldRunning p => exact h.elim
    | calling p => exact h
    | suspended s p => cases s <;> trivial
    | _ => trivial

/-- **C27, partial** (full statement: also when a generator is dropped before its first `next`, and
also for generators inside a plain result; both refuted below).  In any state whatsoever — any history, any number of pending uses — an action that
ends a use by returning a value, raising, exhausting or closing a *started* generator leaves the
labels empty. -/
theorem C27_labels_dropped_partial (labels : List (String × V)) (u : Use V) (a : Act)
    (h : ¬ u.isOver) (h' : (act labels u a).2.isOver)
    (hs : ∀ p, ¬ (a = .close ∧ u.st = .suspended false p)) (hb : ¬ u.st.Bare) :
    (act labels u a).1 = [] := by
  obtain ⟨st, out⟩ := u
  unfold Use.isOver at h h'
  unfold act at h' ⊢
  cases a with
  | step =>
    cases st with
    | calling p =>
      cases p with
      | ret v => rfl
      | fail => rfl
      | retGen b => simp at h'
      | retHolding b => simp at h'
      | add l v k => simp at h'
      | get l k =>
        simp only at h' ⊢
        cases hg : Dict.get? labels l with
        | none => rfl
        | some v => rw [hg] at h'; simp at h'
    | running p =>
      cases p with
      | done => rfl
      | fail => rfl
      | add l v k => simp at h'
      | get l k =>
        simp only at h' ⊢
        cases hg : Dict.get? labels l with
        | none => rfl
        | some v => rw [hg] at h'; simp at h'
      | yield v k => simp at h'
    | suspended s p => simp at h'
    | over => exact absurd rfl h
    | held p => exact absurd trivial hb
    | heldRunning p => exact absurd trivial hb
  | next =>
    cases st with
    | over => exact absurd rfl h
    | held p => exact absurd trivial hb
    | heldRunning p => exact absurd trivial hb
    | suspended s p => simp at h'
    | calling p => simp at h'
    | running p => simp at h'
  | close =>
    cases st with
    | over => exact absurd rfl h
    | held p => exact absurd trivial hb
    | heldRunning p => exact absurd trivial hb
    | suspended s p =>
      cases s with
      | true => rfl
      | false => exact absurd ⟨rfl, rfl⟩ (hs p)
    | calling p => simp at h'
    | running p => simp at h'

/-- A call which returns a plain value, with or without a generator inside, leaves no label. -/
theorem C27_holder (labels : List (String × V)) (b : GenProg V) (out : List (Out V)) :
    (act labels ⟨.calling (.retHolding b), out⟩ .step).1 = [] := rfl

/-- A use whose client got a value from its generator is no longer in the call and not before the
first resumption. -/
def Use.Sane (u : Use V) : Prop :=
  (∃ v, Out.yielded v ∈ u.out) → ∀ p q, u.st ≠ .calling p ∧ u.st ≠ .suspended false q

theorem act_sane (labels : List (String × V)) (u : Use V) (a : Act) (h : u.Sane) :
    (act labels u a).2.Sane := by
  obtain ⟨st, out⟩ := u
  have keep : ∀ (st' : St V) (o : List (Out V)), (∀ v, Out.yielded v ∉ o) →
      ((∃ p, st = .calling p) ∨ (∃ q, st = .suspended false q) ∨
        (∀ p q, st' ≠ .calling p ∧ st' ≠ .suspended false q)) → Use.Sane ⟨st', out ++ o⟩ := by
    intro st' o ho hst hv p q
    obtain ⟨v, hv⟩ := hv
    have hv' : Out.yielded v ∈ out := by
      rcases List.mem_append.1 hv with e | e
      · exact e
      · exact absurd e (ho v)
    rcases hst with ⟨p', e⟩ | ⟨q', e⟩ | e
    · exact absurd e (h ⟨v, hv'⟩ p' (.done)).1
    · exact absurd e (h ⟨v, hv'⟩ (.fail) q').2
    · exact e p q
  have keep0 : ∀ st' : St V, ((∃ p, st = .calling p) ∨ (∃ q, st = .suspended false q) ∨
        (∀ p q, st' ≠ .calling p ∧ st' ≠ .suspended false q)) → Use.Sane ⟨st', out⟩ := by
    intro st' hst
    have := keep st' [] (by simp) hst
    rwa [List.append_nil] at this
  have over : ∀ (st' : St V) (o : List (Out V)), (∀ p q, st' ≠ .calling p ∧ st' ≠ .suspended false q) →
      Use.Sane ⟨st', o⟩ := fun _ _ e _ => e
  cases a with
  | step =>
    cases st with
    | calling p =>
      cases p with
      | ret v => exact over _ _ (by simp)
      | fail => exact over _ _ (by simp)
      | retGen b => exact keep _ _ (by simp) (.inl ⟨_, rfl⟩)
      | retHolding b => exact over _ _ (by simp)
      | add l v k => exact keep0 _ (.inl ⟨_, rfl⟩)
      | get l k =>
        simp only [act]
        split
        · exact keep0 _ (.inl ⟨_, rfl⟩)
        · exact over _ _ (by simp)
    | running p =>
      cases p with
      | done => exact over _ _ (by simp)
      | fail => exact over _ _ (by simp)
      | add l v k => exact over _ _ (by simp)
      | get l k =>
        simp only [act]
        split <;> exact over _ _ (by simp)
      | yield v k => exact over _ _ (by simp)
    | held p => exact h
    | heldRunning p =>
      cases p with
      | done => exact over _ _ (by simp)
      | fail => exact over _ _ (by simp)
      | add l v k => exact over _ _ (by simp)
      | get l k =>
        simp only [act]
        split <;> exact over _ _ (by simp)
      | yield v k => exact over _ _ (by simp)
    | suspended s p => exact h
    | over => exact h
  | next =>
    cases st with
    | suspended s p => exact over _ _ (by simp)
    | held p => exact over _ _ (by simp)
    | heldRunning p => exact h
    | over => exact h
    | calling p => exact h
    | running p => exact h
  | close =>
    cases st with
    | suspended s p => cases s <;> exact over _ _ (by simp)
    | held p => exact over _ _ (by simp)
    | heldRunning p => exact h
    | over => exact h
    | calling p => exact h
    | running p => exact h

theorem run_sane (es : List (Ev V)) : ∀ (w : World V), (∀ u ∈ w.uses, u.Sane) →
    ∀ u ∈ (run w es).uses, u.Sane := by
  induction es with
  | nil => intro w h; exact h
  | cons e es ih =>
    intro w h
    refine ih (step w e) ?_
    cases e with
    | call p =>
      intro u hu
      simp only [step, List.mem_append, List.mem_singleton] at hu
      rcases hu with hu | rfl
      · exact h u hu
      · rintro ⟨v, hv⟩
        simp at hv
    | act i a =>
      simp only [step]
      split
      · rename_i u hu
        intro x hx
        rcases List.mem_or_eq_of_mem_set hx with e | rfl
        · exact h x e
        · exact act_sane _ _ _ (h u (List.mem_of_getElem? hu))
      · exact h

/-- A use with a bare generator has given out its holder. -/
theorem act_held (labels : List (String × V)) (u : Use V) (a : Act)
    (h : u.st.Bare → Out.gotHolder ∈ u.out) :
    (act labels u a).2.st.Bare → Out.gotHolder ∈ (act labels u a).2.out := by
  obtain ⟨st, out⟩ := u
  cases a with
  | step =>
    cases st with
    | calling p =>
      cases p with
      | retHolding b => intro _; simp [act]
      | get l k => simp only [act]; split <;> exact fun e => e.elim
      | _ => exact fun e => e.elim
    | running p =>
      cases p with
      | get l k => simp only [act]; split <;> exact fun e => e.elim
      | _ => exact fun e => e.elim
    | heldRunning p =>
      cases p with
      | get l k =>
        simp only [act]
        split
        · exact fun _ => h trivial
        · exact fun e => e.elim
      | add l v k => exact fun _ => h trivial
      | yield v k => intro _; exact List.mem_append_left _ (h trivial)
      | done => exact fun e => e.elim
      | fail => exact fun e => e.elim
    | _ => exact h
  | next =>
    cases st with
    | suspended s p => exact fun e => e.elim
    | held p => exact fun _ => h trivial
    | _ => exact h
  | close =>
    cases st with
    | suspended s p => cases s <;> exact fun e => e.elim
    | held p => exact fun e => e.elim
    | _ => exact h

theorem run_held (es : List (Ev V)) : ∀ (w : World V),
    (∀ u ∈ w.uses, u.st.Bare → Out.gotHolder ∈ u.out) →
    ∀ u ∈ (run w es).uses, u.st.Bare → Out.gotHolder ∈ u.out := by
  induction es with
  | nil => intro w h; exact h
  | cons e es ih =>
    intro w h
    refine ih (step w e) ?_
    cases e with
    | call p =>
      intro u hu
      simp only [step, List.mem_append, List.mem_singleton] at hu
      rcases hu with hu | rfl
      · exact h u hu
      · exact fun e => e.elim
    | act i a =>
      simp only [step]
      split
      · rename_i u hu
        intro x hx
        rcases List.mem_or_eq_of_mem_set hx with e | rfl
        · exact h x e
        · exact act_held _ _ _ (h u (List.mem_of_getElem? hu))
      · exact h

/-- **C27, in terms of what clients see** (partial as above).  After any history of a converter, an
action which ends a use leaves no label, unless it closes a generator from which the client never
got a value, or the use has given out a plain value with a generator inside. -/
theorem C27_observed_partial (es : List (Ev V)) (i : Nat) (u : Use V) (a : Act)
    (hu : (run init es).uses[i]? = some u) (h : ¬ u.isOver)
    (h' : (act (run init es).labels u a).2.isOver)
    (seen : (act (run init es).labels u a).2.out.getLast? ≠ some .closed ∨
      ∃ v, .yielded v ∈ u.out) (holder : .gotHolder ∉ u.out) : (run (run init es) [.act i a]).labels = [] := by
  have hl : (run (run init es) [.act i a]).labels = (act (run init es).labels u a).1 := by
    show (step (run init es) (.act i a)).labels = _
    simp only [step, hu]
  rw [hl]
  refine C27_labels_dropped_partial _ u a h h' ?_ (fun hb =>
    holder (run_held es init (by simp [init]) u (List.mem_of_getElem? hu) hb))
  rintro p ⟨rfl, hst⟩
  rcases seen with e | e
  · refine e ?_
    simp only [act, hst]
    simp
  · exact (run_sane es init (by simp [init]) u (List.mem_of_getElem? hu) e (.fail) p).2 hst

/-- A generator closed after its first value. -/
example : let es : List (Ev Nat) := [.call (.add "x" 7 (.retGen (.yield 1 .done))), .act 0 .step,
      .act 0 .step, .act 0 .next, .act 0 .step]
    (run init es).labels = [("x", 7)] ∧ (run init (es ++ [.act 0 .close])).labels = [] :=
  ⟨rfl, rfl⟩

/-- **C27 is violated**: the call labels a value and returns a generator, which the client drops
without starting it; the next call of the converter still sees the label. -/
theorem C27_refuted : ∃ es : List (Ev Nat), ∃ p : CallProg Nat,
    let w := run init es
    (∀ u ∈ w.uses, u.isOver) ∧
    ((run w [.call p, .act 1 .step, .act 1 .step]).uses[1]?.map (·.out)) = some [.returned 7] ∧
    (run init [.call p, .act 0 .step, .act 0 .step]).uses[0]?.map (·.out) = some [.raised] := by
  refine ⟨[.call (.add "x" 7 (.retGen .done)), .act 0 .step, .act 0 .step, .act 0 .close],
    .get "x" .ret, ?_, rfl, rfl⟩
  intro u hu
  simp [run, step, init, act, Dict.set] at hu
  subst hu
  rfl

/-- **C27 is violated** by results with generators inside: the generator labels when it is consumed,
after the clean-up of its call, and nothing cleans up after it; the next call sees the label. -/
theorem C27_refuted_held : ∃ es : List (Ev Nat), ∃ p : CallProg Nat,
    let w := run init es
    (∀ u ∈ w.uses, u.isOver ∧ u.out = [.gotHolder, .stopped]) ∧
    ((run w [.call p, .act 1 .step, .act 1 .step]).uses[1]?.map (·.out)) = some [.returned 7] ∧
    (run init [.call p, .act 0 .step, .act 0 .step]).uses[0]?.map (·.out) = some [.raised] := by
  refine ⟨[.call (.retHolding (.add "x" 7 .done)), .act 0 .step, .act 0 .next, .act 0 .step,
    .act 0 .step], .get "x" .ret, ?_, rfl, rfl⟩
  intro u hu
  simp [run, step, init, act, Dict.set] at hu
  subst hu
  exact ⟨rfl, rfl⟩

/-! ## C28 -/

/-- Alone: a single use with its own actions, on an initially empty label dict. -/
def alone (labels : List (String × V)) (u : Use V) (as : List Act) : List (String × V) × Use V :=
  as.foldl (fun s a => act s.1 s.2 a) (labels, u)

/-- What the client of a call `p` sees if it is the only use of the converter. -/
def aloneOut (p : CallProg V) (as : List Act) : List (Out V) :=
  (alone [] ⟨.calling p, []⟩ as).2.out

/-- The actions on use `i` in a schedule. -/
def actsOf (i : Nat) (es : List (Ev V)) : List Act :=
  es.filterMap fun e => match e with
    | .act j a => if j = i then some a else none
    | .call _ => none

/-- **C28 is violated**: two generators of one converter, consumed alternately; the second call
overwrites the label of the first, whose client then gets a value it would not get alone. -/
theorem C28_refuted_generators : ∃ (p q : CallProg Nat) (es : List (Ev Nat)),
    let full := [Ev.call p, .call q] ++ es
    (run init full).uses[0]?.map (·.out) = some [.gotGenerator, .yielded 2] ∧
    aloneOut p (actsOf 0 full) = [.gotGenerator, .yielded 1] := by
  refine ⟨.add "x" 1 (.retGen (.get "x" fun v => .yield v .done)),
    .add "x" 2 (.retGen (.get "x" fun v => .yield v .done)),
    [.act 0 .step, .act 0 .step, .act 1 .step, .act 1 .step, .act 0 .next, .act 0 .step,
      .act 0 .step], rfl, rfl⟩

/-- **C28 is violated** for plain calls running in two threads: the first call finishing drops the
label the other one is about to read, so the other raises. -/
theorem C28_refuted_threads : ∃ (p : CallProg Nat) (es : List (Ev Nat)),
    let full := [Ev.call p, .call p] ++ es
    (run init full).uses[1]?.map (·.out) = some [.raised] ∧
    aloneOut p (actsOf 1 full) = [.returned 1] := by
  refine ⟨.add "x" 1 (.get "x" .ret),
    [.act 0 .step, .act 1 .step, .act 0 .step, .act 0 .step, .act 1 .step, .act 1 .step],
    rfl, rfl⟩

/-- Code without label operations. -/
inductive GenProg.NoLabels : GenProg V → Prop
  | done : NoLabels .done
  | fail : NoLabels .fail
  | yield {v k} : NoLabels k → NoLabels (.yield v k)

inductive CallProg.NoLabels : CallProg V → Prop
  | ret {v} : NoLabels (.ret v)
  | fail : NoLabels .fail
  | retGen {b} : b.NoLabels → NoLabels (.retGen b)
  | retHolding {b} : b.NoLabels → NoLabels (.retHolding b)

def St.NoLabels : St V → Prop
  | .calling p => p.NoLabels
  | .suspended _ p => p.NoLabels
  | .running p => p.NoLabels
  | .held p => p.NoLabels
  | .heldRunning p => p.NoLabels
  | .over => True

theorem act_noLabels (labels labels' : List (String × V)) (u : Use V) (a : Act)
    (h : u.st.NoLabels) :
    (act labels u a).2 = (act labels' u a).2 ∧ (act labels u a).2.st.NoLabels := by
  obtain ⟨st, out⟩ := u
  cases a with
  | step =>
    cases st with
    | calling p =>
      cases h with
      | ret => exact ⟨rfl, trivial⟩
      | fail => exact ⟨rfl, trivial⟩
      | retGen hb => exact ⟨rfl, hb⟩
      | retHolding hb => exact ⟨rfl, hb⟩
    | running p =>
      cases h with
      | done => exact ⟨rfl, trivial⟩
      | fail => exact ⟨rfl, trivial⟩
      | yield hk => exact ⟨rfl, hk⟩
    | heldRunning p =>
      cases h with
      | done => exact ⟨rfl, trivial⟩
      | fail => exact ⟨rfl, trivial⟩
      | yield hk => exact ⟨rfl, hk⟩
    | held p => exact ⟨rfl, h⟩
    | suspended s p => exact ⟨rfl, h⟩
    | over => exact ⟨rfl, trivial⟩
  | next =>
    cases st with
    | suspended s p => exact ⟨rfl, h⟩
    | held p => exact ⟨rfl, h⟩
    | heldRunning p => exact ⟨rfl, h⟩
    | calling p => exact ⟨rfl, h⟩
    | running p => exact ⟨rfl, h⟩
    | over => exact ⟨rfl, trivial⟩
  | close =>
    cases st with
    | suspended s p => cases s <;> exact ⟨rfl, trivial⟩
    | held p => exact ⟨rfl, trivial⟩
    | heldRunning p => exact ⟨rfl, h⟩
    | calling p => exact ⟨rfl, h⟩
    | running p => exact ⟨rfl, h⟩
    | over => exact ⟨rfl, trivial⟩

/-- Running a schedule, seen from use `i`, whose code has no label operations. -/
theorem run_noLabels (es : List (Ev V)) : ∀ (w : World V) (i : Nat) (u : Use V),
    w.uses[i]? = some u → u.st.NoLabels → ∀ labels,
    (run w es).uses[i]? = some (alone labels u (actsOf i es)).2 := by
  induction es with
  | nil => intro w i u h _ labels; exact h
  | cons e es ih =>
    intro w i u h hn labels
    cases e with
    | call p =>
      have h' : (step w (.call p)).uses[i]? = some u := by
        have hi := (List.getElem?_eq_some_iff.1 h).1
        simp only [step]
        rw [List.getElem?_append_left hi]; exact h
      exact ih _ i u h' hn labels
    | act j a =>
      by_cases hj : j = i
      · subst hj
        have hs : (step w (.act j a)).uses[j]? = some (act labels u a).2 := by
          have hi := (List.getElem?_eq_some_iff.1 h).1
          simp only [step, h]
          rw [List.getElem?_set_self hi, (act_noLabels w.labels labels u a hn).1]
        have := ih _ j _ hs (act_noLabels labels labels u a hn).2 (act labels u a).1
        simp only [run, List.foldl_cons] at this ⊢
        rw [this]
        simp [actsOf, alone]
      · have hs : (step w (.act j a)).uses[i]? = some u := by
          simp only [step]
          cases hu : w.uses[j]? with
          | none => exact h
          | some u' =>
            simp only
            rw [List.getElem?_set_ne hj]; exact h
        have := ih _ i u hs hn labels
        simp only [run, List.foldl_cons] at this ⊢
        rw [this]
        simp [actsOf, hj]

/-- **C28, partial**: a use whose code performs no label operation is independent of everything
else: for every schedule (any other uses before, after and interleaved, in any threads) its client
sees what it would see alone. -/
theorem C28_no_labels_partial (pre es : List (Ev V)) (p : CallProg V) (h : p.NoLabels) :
    (run init (pre ++ [.call p] ++ es)).uses[(run init pre : World V).uses.length]?.map (·.out) =
      some (aloneOut p (actsOf (run init pre : World V).uses.length es)) := by
  let w := run init (pre ++ [.call p])
  have hw : w.uses[(run init pre : World V).uses.length]? = some ⟨.calling p, []⟩ := by
    simp only [w, run, List.foldl_append, List.foldl_cons, List.foldl_nil, step]
    simp
  have := run_noLabels es w _ _ hw h []
  simp only [w, run, ← List.foldl_append] at this
  simp only [run, aloneOut] at this ⊢
  rw [this]
  rfl

/-- Sequential histories: each call is driven to its end (generators at least started) before the
next call. `Complete labels u as` says that `as` takes the use `u` to its end, alone, never closing
an unstarted generator. -/
def Complete (labels : List (String × V)) (u : Use V) : List Act → Prop
  | [] => u.isOver
  | a :: as => ¬ u.isOver ∧ (∀ p, ¬ (a = .close ∧ u.st = .suspended false p)) ∧
      Complete (act labels u a).1 (act labels u a).2 as

theorem complete_clears (as : List Act) : ∀ (labels : List (String × V)) (u : Use V),
    ¬ u.isOver → u.st.NoHolding → Complete labels u as → (alone labels u as).1 = [] := by
  induction as with
  | nil => intro labels u h _ hc; exact absurd hc h
  | cons a as ih =>
    intro labels u h hp hc
    by_cases ho : (act labels u a).2.isOver
    · have h0 := C27_labels_dropped_partial labels u a h ho hc.2.1
        (fun e => by cases hst : u.st <;> rw [hst] at hp e <;> first | exact e | exact hp)
      cases as with
      | nil => exact h0
      | cons b as => exact absurd ho hc.2.2.1
    · exact ih _ _ ho (act_noHolding _ _ _ hp) hc.2.2

/-- The events of one complete use as the `i`-th use. -/
def block (i : Nat) (p : CallProg V) (as : List Act) : List (Ev V) := .call p :: as.map (.act i)

theorem run_acts (as : List Act) : ∀ (w : World V) (i : Nat) (u : Use V), w.uses[i]? = some u →
    run w (as.map (.act i)) =
      ⟨(alone w.labels u as).1, w.uses.set i (alone w.labels u as).2⟩ := by
  induction as with
  | nil =>
    intro w i u h
    obtain ⟨hi, rfl⟩ := List.getElem?_eq_some_iff.1 h
    simp [run, alone, List.set_getElem_self]
  | cons a as ih =>
    intro w i u h
    have hi := (List.getElem?_eq_some_iff.1 h).1
    have hs : step w (.act i a) = ⟨(act w.labels u a).1, w.uses.set i (act w.labels u a).2⟩ := by
      simp only [step, h]
    have h' : (step w (.act i a)).uses[i]? = some (act w.labels u a).2 := by
      rw [hs]; exact List.getElem?_set_self hi
    have := ih (step w (.act i a)) i _ h'
    simp only [run, List.map_cons, List.foldl_cons] at this ⊢
    rw [this, hs]
    simp [alone]

/-- A sequential history of complete uses. -/
def history : Nat → List (CallProg V × List Act) → List (Ev V)
  | _, [] => []
  | i, (p, as) :: rest => block i p as ++ history (i + 1) rest

/-- **C28, partial**: uses that follow one another — each call, and the generator it may have
returned, is driven to its end before the next call — are independent: after any such history every
client has seen what it would have seen alone, and no label is left (**C27**).  The calls return no
plain values with generators inside, see `C27_refuted_held`. -/
theorem C28_sequential_partial (hist : List (CallProg V × List Act))
    (hc : ∀ b ∈ hist, Complete [] ⟨.calling b.1, []⟩ b.2) (hp : ∀ b ∈ hist, b.1.NoHolding) :
    let w := run init (history 0 hist)
    w.labels = [] ∧ w.uses.map (·.out) = hist.map (fun b => aloneOut b.1 b.2) := by
  have key : ∀ (hist : List (CallProg V × List Act)) (w : World V), w.labels = [] →
      (∀ b ∈ hist, Complete [] ⟨.calling b.1, []⟩ b.2) → (∀ b ∈ hist, b.1.NoHolding) →
      (run w (history w.uses.length hist)).labels = [] ∧
      (run w (history w.uses.length hist)).uses.map (·.out) =
        w.uses.map (·.out) ++ hist.map (fun b => aloneOut b.1 b.2) := by
    intro hist
    induction hist with
    | nil => intro w hw _ _; simp [history, run, hw]
    | cons b hist ih =>
      intro w hw hc hp
      obtain ⟨p, as⟩ := b
      have hb := hc (p, as) (by simp)
      have hpb : p.NoHolding := hp (p, as) (by simp)
      let w1 := step w (.call p)
      have h1 : w1.uses[w.uses.length]? = some ⟨.calling p, []⟩ := by simp [w1, step]
      have hr := run_acts as w1 w.uses.length _ h1
      have hl : w1.labels = [] := hw
      rw [hl] at hr
      have hclr := complete_clears as [] ⟨.calling p, []⟩ (by simp [Use.isOver]) hpb hb
      let w2 := run w1 (as.map (.act w.uses.length))
      have hw2l : w2.labels = [] := by simp only [w2, hr]; exact hclr
      have hw2u : w2.uses = w.uses ++ [(alone [] ⟨.calling p, []⟩ as).2] := by
        simp only [w2, hr, w1, step]
        simp
      have hlen : w2.uses.length = w.uses.length + 1 := by rw [hw2u]; simp
      have := ih w2 hw2l (fun b hb => hc b (List.mem_cons_of_mem _ hb))
        (fun b hb => hp b (List.mem_cons_of_mem _ hb))
      rw [hlen] at this
      have he : run w (history w.uses.length ((p, as) :: hist)) =
          run w2 (history (w.uses.length + 1) hist) := by
        simp only [history, block, w2, w1, run, List.foldl_append, List.cons_append,
          List.foldl_cons]
      rw [he]
      refine ⟨this.1, ?_⟩
      rw [this.2, hw2u]
      simp [aloneOut]
  have := key hist init rfl hc hp
  simpa [init] using this

/-! ## C26 (run-time part): a read gives the latest value labelled by the same use -/

/-- The last value assigned to a label, in a chronological list of labelling steps. -/
def latest (hist : List (String × V)) (l : String) : Option V :=
  (hist.reverse.find? (fun e => e.1 == l)).map Prod.snd

/-- What the client of a generator body must see when it consumes it completely: reads refer to the
labelling steps `hist` made so far. -/
def wantGen (hist : List (String × V)) : GenProg V → List (Out V)
  | .done => [.stopped]
  | .fail => [.raised]
  | .add l v k => wantGen (hist ++ [(l, v)]) k
  | .get l k =>
    match latest hist l with
    | some v => wantGen hist (k v)
    | none => [.raised]
  | .yield v k => .yielded v :: wantGen hist k

/-- What the client of a call must see, including complete consumption of a returned generator or
of the generator inside the returned value. -/
def wantCall (hist : List (String × V)) : CallProg V → List (Out V)
  | .ret v => [.returned v]
  | .fail => [.raised]
  | .retGen b => .gotGenerator :: wantGen hist b
  | .retHolding b => .gotHolder :: wantGen hist b
  | .add l v k => wantCall (hist ++ [(l, v)]) k
  | .get l k =>
    match latest hist l with
    | some v => wantCall hist (k v)
    | none => [.raised]

def wantSt (hist : List (String × V)) : St V → List (Out V)
  | .calling p => wantCall hist p
  | .suspended _ p => wantGen hist p
  | .running p => wantGen hist p
  | .held p => wantGen hist p
  | .heldRunning p => wantGen hist p
  | .over => []

theorem latest_append (hist : List (String × V)) (l : String) (v : V) (m : String) :
    latest (hist ++ [(l, v)]) m = if l == m then some v else latest hist m := by
  simp only [latest, List.reverse_append, List.reverse_cons, List.reverse_nil, List.nil_append,
    List.cons_append, List.find?_cons]
  cases l == m <;> simp

theorem rel_add {hist labels : List (String × V)}
    (h : ∀ m, Dict.get? labels m = latest hist m) (l : String) (v : V) (m : String) :
    Dict.get? (Dict.set labels l v) m = latest (hist ++ [(l, v)]) m := by
  rw [Dict.get?_set, latest_append, h]

theorem alone_over (as : List Act) : ∀ (labels : List (String × V)) (u : Use V), u.isOver →
    Complete labels u as → (alone labels u as).2.out = u.out := by
  intro labels u h hc
  cases as with
  | nil => rfl
  | cons a as => exact absurd h hc.1

theorem complete_want (as : List Act) : ∀ (labels : List (String × V)) (u : Use V)
    (hist : List (String × V)), (∀ m, Dict.get? labels m = latest hist m) →
    u.st.NoHolding → Complete labels u as → Act.close ∉ as → (alone labels u as).2.out = u.out ++ wantSt hist u.st := by
  induction as with
  | nil =>
    intro labels u hist _ _ hc _
    have : u.st = .over := hc
    simp [alone, this, wantSt]
  | cons a as ih =>
    intro labels u hist hr hp hc hn
    have hp' := act_noHolding labels u a hp
    have hstep : (alone labels u (a :: as)) = alone (act labels u a).1 (act labels u a).2 as := rfl
    have hc' := hc.2.2
    have hn' : Act.close ∉ as := fun h => hn (List.mem_cons_of_mem _ h)
    obtain ⟨st, out⟩ := u
    rw [hstep]
    cases a with
    | close => exact absurd (List.mem_cons_self ..) hn
    | next =>
      cases st with
      | suspended s p => exact ih _ _ hist hr hp' hc' hn'
      | calling p => exact ih _ _ hist hr hp' hc' hn'
      | running p => exact ih _ _ hist hr hp' hc' hn'
      | over => exact ih _ _ hist hr hp' hc' hn'
      | held p => exact hp.elim
      | heldRunning p => exact hp.elim
    | step =>
      cases st with
      | suspended s p => exact ih _ _ hist hr hp' hc' hn'
      | over => exact ih _ _ hist hr hp' hc' hn'
      | held p => exact hp.elim
      | heldRunning p => exact hp.elim
      | calling p =>
        cases p with
        | ret v => simp only [act] at hp' hc' ⊢; rw [alone_over as _ _ (by rfl) hc']; rfl
        | fail => simp only [act] at hp' hc' ⊢; rw [alone_over as _ _ (by rfl) hc']; rfl
        | retGen b =>
          simp only [act] at hp' hc' ⊢
          rw [ih _ _ hist hr hp' hc' hn']
          simp [wantSt, wantCall]
        | retHolding b => nomatch hp
        | add l v k =>
          simp only [act] at hp' hc' ⊢
          rw [ih _ _ (hist ++ [(l, v)]) (rel_add hr l v) hp' hc' hn']
          simp [wantSt, wantCall]
        | get l k =>
          have hl := hr l
          cases hg : Dict.get? labels l with
          | none =>
            rw [hg] at hl
            simp only [act, hg] at hp' hc' ⊢
            rw [alone_over as _ _ (by rfl) hc']
            simp [wantSt, wantCall, ← hl]
          | some v =>
            rw [hg] at hl
            simp only [act, hg] at hp' hc' ⊢
            rw [ih _ _ hist hr hp' hc' hn']
            simp [wantSt, wantCall, ← hl]
      | running p =>
        cases p with
        | done => simp only [act] at hp' hc' ⊢; rw [alone_over as _ _ (by rfl) hc']; rfl
        | fail => simp only [act] at hp' hc' ⊢; rw [alone_over as _ _ (by rfl) hc']; rfl
        | add l v k =>
          simp only [act] at hp' hc' ⊢
          rw [ih _ _ (hist ++ [(l, v)]) (rel_add hr l v) hp' hc' hn']
          simp [wantSt, wantGen]
        | get l k =>
          have hl := hr l
          cases hg : Dict.get? labels l with
          | none =>
            rw [hg] at hl
            simp only [act, hg] at hp' hc' ⊢
            rw [alone_over as _ _ (by rfl) hc']
            simp [wantSt, wantGen, ← hl]
          | some v =>
            rw [hg] at hl
            simp only [act, hg] at hp' hc' ⊢
            rw [ih _ _ hist hr hp' hc' hn']
            simp [wantSt, wantGen, ← hl]
        | yield v k =>
          simp only [act] at hp' hc' ⊢
          rw [ih _ _ hist hr hp' hc' hn']
          simp [wantSt, wantGen]

/-- **C26 is violated** by results with generators inside, e.g. a tuple of which one item is
labelled and another is a `c.generator_comp` reading the label: labels are dropped when the tuple is
returned, so the generator raises when it reads the label. -/
theorem C26_refuted_held : ∃ (p : CallProg Nat) (as : List Act),
    Complete [] ⟨.calling p, []⟩ as ∧ Act.close ∉ as ∧
    wantCall [] p = [.gotHolder, .yielded 1, .stopped] ∧ aloneOut p as = [.gotHolder, .raised] := by
  refine ⟨.add "x" 1 (.retHolding (.get "x" fun v => .yield v .done)),
    [.step, .step, .next, .step], ?_, by decide, by decide, rfl⟩
  simp [Complete, act, Use.isOver, Dict.set, Dict.get?]

/-- **C26, run-time part, partial** (missing: generators inside a plain result, see
`C26_refuted_held`): in a use that is driven to its end, every read of a label gives the
value labelled last *by this use* (also when the labelling happened before the generator was
returned), and a read of a label this use has not set raises. -/
theorem C26_reads_latest_partial (p : CallProg V) (as : List Act) (hp : p.NoHolding)
    (hc : Complete [] ⟨.calling p, []⟩ as) (hn : Act.close ∉ as) : aloneOut p as = wantCall [] p := by
  have := complete_want as [] ⟨.calling p, []⟩ [] (fun _ => rfl) hp hc hn
  simpa [aloneOut, wantSt] using this

/-- Labels set twice, then read inside the returned generator. -/
example : wantCall ([] : List (String × Nat))
    (.add "x" 1 (.add "x" 2 (.retGen (.get "x" fun v => .yield v .done)))) =
    [.gotGenerator, .yielded 2, .stopped] := by decide

/-- Two complete uses of a labelling generator converter: a plain call and a generator. -/
example : Complete ([] : List (String × Nat)) ⟨.calling (.add "x" 1 (.get "x" .ret)), []⟩
    [.step, .step, .step] := by
  simp [Complete, act, Use.isOver, Dict.set, Dict.get?]

example : Complete ([] : List (String × Nat))
    ⟨.calling (.add "x" 1 (.retGen (.get "x" fun v => .yield v .done))), []⟩
    [.step, .step, .next, .step, .step, .next, .step] := by
  simp [Complete, act, Use.isOver, Dict.set, Dict.get?]

end Verif.Labels
