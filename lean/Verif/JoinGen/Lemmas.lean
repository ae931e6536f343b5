import Verif.JoinGen.Spec

/-!
# The generators of a join and the nested loops

First the three kinds of generators are shown to behave like one machine (`G`), then the machine is
compared with the loops.
-/

set_option autoImplicit false

namespace Verif.JoinGen

open Verif Verif.Lazy

variable {σ A K E : Type}

/-! ## One machine for all kinds of joins -/

/-- Where a join is suspended. -/
inductive G (A : Type)
  | top (seen : List A)
  | row (l : A) (it : It A) (seen : List A)
  | rest (seen xs : List A)
  | over

/-- The next right row not seen. -/
def gRest [DecidableEq A] (none_ : A) (seen : List A) : List A → Step (A × A) E × G A
  | [] => (.stop, .over)
  | r :: rs => if r ∈ seen then gRest none_ seen rs else (.yield (none_, r), .rest seen rs)

/-- From the head of the outer loop. -/
def gTop [DecidableEq A] [BEq K] (c : Code σ A K E) (src : Source A K) (rows : List A)
    (seen : List A) : ℕ → World σ → Step (A × A) E × G A × ℕ × World σ
  | 0, W => (.out, .over, 0, W)
  | n + 1, W =>
    match c.pullL W.st with
    | (.stop, w1) =>
      ((gRest c.none_ seen rows).1, (gRest (E := E) c.none_ seen rows).2, n, ⟨W.right, W.closed, w1⟩)
    | (.raise e, w1) => (.raise e, .over, n, ⟨W.right, W.closed, w1⟩)
    | (.yield l, w1) =>
      match test c.leftFilter l w1 with
      | (.error e, w2) => (.raise e, .over, n, ⟨W.right, W.closed, w2⟩)
      | (.ok false, w2) => gTop c src rows seen n ⟨W.right, W.closed, w2⟩
      | (.ok true, w2) =>
        match c.itemsOf src l w2 with
        | (.error e, w3) => (.raise e, .over, n, ⟨W.right, W.closed, w3⟩)
        | (.ok it, w3) =>
          match scan c l it ⟨W.right, W.closed, w3⟩ with
          | (.item r rest, W4) => (.yield (c.kind.pair l r), .row l rest (r :: seen), n, W4)
          | (.none, W4) =>
            if c.kind = .inner then gTop c src rows (c.none_ :: seen) n W4
            else (.yield (c.kind.pair l c.none_), .top (c.none_ :: seen), n, W4)
          | (.raise e, W4) => (.raise e, .over, n, W4)
          | (.out, W4) => (.out, .over, n, W4)

/-- The next pair. -/
def gNext [DecidableEq A] [BEq K] (c : Code σ A K E) (src : Source A K) (rows : List A) (g : G A)
    (n : ℕ) (W : World σ) : Step (A × A) E × G A × ℕ × World σ :=
  match g with
  | .over => (.stop, .over, n, W)
  | .rest seen xs => ((gRest c.none_ seen xs).1, (gRest (E := E) c.none_ seen xs).2, n, W)
  | .top seen => gTop c src rows seen n W
  | .row l it seen =>
    match scan c l it W with
    | (.item r rest, W1) => (.yield (c.kind.pair l r), .row l rest (r :: seen), n, W1)
    | (.none, W1) => gTop c src rows seen n W1
    | (.raise e, W1) => (.raise e, .over, n, W1)
    | (.out, W1) => (.out, .over, n, W1)

/-- The client's loop. -/
def gConsume [DecidableEq A] [BEq K] (c : Code σ A K E) (src : Source A K) (rows : List A)
    (body : A × A → σ → Flow E × σ) : ℕ → G A → ℕ → World σ → End E × σ
  | 0, _, _, W => (.out, W.st)
  | k + 1, g, n, W =>
    match gNext c src rows g n W with
    | (.stop, _, _, W1) => (.done, W1.st)
    | (.raise e, _, _, W1) => (.raise e, W1.st)
    | (.out, _, _, W1) => (.out, W1.st)
    | (.yield p, g', n1, W1) =>
      match body p W1.st with
      | (.brk, w2) => (.brk, w2)
      | (.raise e, w2) => (.raise e, w2)
      | (.go, w2) => gConsume c src rows body k g' n1 ⟨W1.right, W1.closed, w2⟩

/-- The states of the machine a generator may be in. -/
def Sim (kind : Kind) : Gen A → G A → Prop
  | .inner .top, .top _ => kind = .inner
  | .inner (.row l it), .row l' it' _ => kind = .inner ∧ l = l' ∧ it = it'
  | .inner .over, .over => kind = .inner
  | .left sw ⟨.top, o⟩, .top _ => kind = .left sw ∧ o.finished = false
  | .left sw ⟨.row l ones, o⟩, .row l' it _ =>
    kind = .left sw ∧ l = l' ∧ ones = some it ∧ o = ⟨some l, false⟩
  | .left sw ⟨.over, _⟩, .over => kind = .left sw
  | .outer (.first ⟨.top, o⟩ seen), .top seen' =>
    kind = .outer ∧ o.finished = false ∧ seen = seen'
  | .outer (.first ⟨.row l ones, o⟩ seen), .row l' it seen' =>
    kind = .outer ∧ l = l' ∧ ones = some it ∧ o = ⟨some l, false⟩ ∧ seen = seen'
  | .outer (.second seen xs), .rest seen' xs' => kind = .outer ∧ seen = seen' ∧ xs = xs'
  | .outer .over, .over => kind = .outer
  | _, _ => False

/-- Two results of `next` agree, and after a pair so do the states. -/
def SameStep (kind : Kind) (x : Step (A × A) E × Gen A × ℕ × World σ)
    (y : Step (A × A) E × G A × ℕ × World σ) : Prop :=
  x.1 = y.1 ∧ x.2.2 = y.2.2 ∧ (∀ p, x.1 = .yield p → Sim kind x.2.1 y.2.1)

theorem sameStep_innerTop [DecidableEq A] [BEq K] (c : Code σ A K E) (src : Source A K)
    (hk : c.kind = .inner) : ∀ (n : ℕ) (W : World σ) (seen : List A),
    SameStep c.kind
      ((innerTop c src n W).1, Gen.inner (innerTop c src n W).2.1, (innerTop c src n W).2.2)
      (gTop c src [] seen n W) := by
  intro n
  induction n with
  | zero => intro W seen; exact ⟨rfl, rfl, by simp [innerTop]⟩
  | succ n ih =>
    intro W seen
    simp only [innerTop, gTop]
    rcases h1 : c.pullL W.st with ⟨_ | _ | _, w1⟩
    · dsimp only
      rename_i l
      rcases h2 : test c.leftFilter l w1 with ⟨_ | b, w2⟩
      · exact ⟨rfl, rfl, by simp⟩
      · cases b
        · exact ih _ _
        · dsimp only
          rcases h3 : c.itemsOf src l w2 with ⟨_ | it, w3⟩
          · exact ⟨rfl, rfl, by simp⟩
          · dsimp only
            rcases h4 : scan c l it ⟨W.right, W.closed, w3⟩ with ⟨_ | _ | _ | _, W4⟩
            · exact ⟨by simp [Kind.pair, hk], rfl, by intro p _; exact ⟨hk, rfl, rfl⟩⟩
            · simp only [hk, if_true]
              have := ih W4 (c.none_ :: seen)
              rw [hk] at this
              exact this
            · exact ⟨rfl, rfl, by simp⟩
            · exact ⟨rfl, rfl, by simp⟩
    · exact ⟨rfl, rfl, by simp⟩
    · exact ⟨rfl, rfl, by simp⟩

theorem sameStep_inner [DecidableEq A] [BEq K] (c : Code σ A K E) (src : Source A K)
    (hk : c.kind = .inner) (s : InnerState A) (g : G A) (hs : Sim c.kind (.inner s) g) (n : ℕ)
    (W : World σ) : SameStep c.kind (next c src [] (.inner s) n W) (gNext c src [] g n W) := by
  cases s with
  | top =>
    cases g <;> try exact hs.elim
    exact sameStep_innerTop c src hk n W _
  | over =>
    cases g <;> try exact hs.elim
    exact ⟨rfl, rfl, by simp [next, innerNext]⟩
  | row l it =>
    cases g <;> try exact hs.elim
    obtain ⟨-, rfl, rfl⟩ := hs
    simp only [next, innerNext, gNext]
    rcases h4 : scan c l it W with ⟨_ | _ | _ | _, W4⟩
    · exact ⟨by simp [Kind.pair, hk], rfl, by intro p _; exact ⟨hk, rfl, rfl⟩⟩
    · exact sameStep_innerTop c src hk n W4 _
    · exact ⟨rfl, rfl, by simp⟩
    · exact ⟨rfl, rfl, by simp⟩

/-- `_left_joiner` and the machine with no rows at the end. -/
def SameJoin (sw : Bool) (x : Step (A × A) E × JoinerState A × ℕ × World σ)
    (y : Step (A × A) E × G A × ℕ × World σ) : Prop :=
  x.1 = y.1 ∧ x.2.2 = y.2.2 ∧ (∀ p, x.1 = .yield p → Sim (.left sw) (.left sw x.2.1) y.2.1)

theorem pairOf_eq (k : Kind) (sw : Bool) (hk : k = .left sw ∨ (k = .outer ∧ sw = false)) (l r : A) :
    pairOf sw l r = k.pair l r := by
  rcases hk with rfl | ⟨rfl, rfl⟩
  · cases sw <;> rfl
  · rfl

/-- What follows when a left or outer join comes to its end. -/
def gEnd [DecidableEq A] (c : Code σ A K E) (rows seen : List A)
    (x : Step (A × A) E × JoinerState A × ℕ × World σ) : Step (A × A) E × G A × ℕ × World σ :=
  match x with
  | (.stop, _, n, W) => ((gRest c.none_ seen rows).1, (gRest (E := E) c.none_ seen rows).2, n, W)
  | (.yield p, ⟨.row l (some it), _⟩, n, W) =>
    (.yield p, .row l it ((if c.kind = .left true then p.1 else p.2) :: seen), n, W)
  | (.yield p, _, n, W) => (.yield p, .top (c.none_ :: seen), n, W)
  | (.raise e, _, n, W) => (.raise e, .over, n, W)
  | (.out, _, n, W) => (.out, .over, n, W)

/-- The states `_left_joiner` is left in after a pair. -/
def Suspended (s : JoinerState A) : Prop :=
  (∃ l it, s = ⟨.row l (some it), ⟨some l, false⟩⟩) ∨ (∃ o, s = ⟨.top, o⟩ ∧ o.finished = false)

theorem joinerTop_eq [DecidableEq A] [BEq K] (c : Code σ A K E) (src : Source A K) (sw : Bool)
    (hk : c.kind = .left sw ∨ (c.kind = .outer ∧ sw = false)) (rows seen : List A) :
    ∀ (n : ℕ) (o : Outer A) (_ : o.finished = false) (W : World σ),
      gTop c src rows seen n W = gEnd c rows seen (joinerTop c src sw o n W) ∧
      (∀ p, (joinerTop c src sw o n W).1 = .yield p → Suspended (joinerTop c src sw o n W).2.1) := by
  have hni : c.kind ≠ .inner := by rcases hk with h | ⟨h, _⟩ <;> simp [h]
  intro n
  induction n with
  | zero =>
    intro o ho W
    simp [joinerTop, outerNext, ho, outerLoop, gTop, gEnd]
  | succ n ih =>
    intro o ho W
    simp only [joinerTop, outerNext, ho, outerLoop, gTop, Bool.false_eq_true, if_false]
    rcases h1 : c.pullL W.st with ⟨_ | _ | _, w1⟩
    · dsimp only
      rename_i l
      rcases h2 : test c.leftFilter l w1 with ⟨_ | b, w2⟩
      · exact ⟨rfl, by simp⟩
      · cases b
        · have := ih o ho ⟨W.right, W.closed, w2⟩
          simpa only [joinerTop, outerNext, ho, Bool.false_eq_true, if_false] using this
        · dsimp only
          rcases h3 : c.itemsOf src l w2 with ⟨_ | it, w3⟩
          · exact ⟨rfl, by simp⟩
          · dsimp only [innerGen]
            rcases h4 : scan c l it ⟨W.right, W.closed, w3⟩ with ⟨_ | _ | _ | _, W4⟩
            · refine ⟨?_, fun p _ => Or.inl ⟨l, _, rfl⟩⟩
              simp only [gEnd]
              rw [pairOf_eq c.kind sw hk]
              rcases hk with h | ⟨h, _⟩
              · cases sw <;> simp [h, Kind.pair]
              · simp [h, Kind.pair]
            · refine ⟨?_, fun p _ => Or.inr ⟨_, rfl, rfl⟩⟩
              simp only [gEnd, hni, if_false]
              rw [pairOf_eq c.kind sw hk]
            · exact ⟨rfl, by simp⟩
            · exact ⟨rfl, by simp⟩
    · exact ⟨rfl, by simp⟩
    · exact ⟨rfl, by simp⟩

/-- The states of `_left_joiner` and of the machine. -/
def SimJ : JoinerState A → G A → Prop
  | ⟨.top, o⟩, .top _ => o.finished = false
  | ⟨.row l ones, o⟩, .row l' it _ => l = l' ∧ ones = some it ∧ o = ⟨some l, false⟩
  | _, _ => False

/-- What the machine has seen. -/
def G.seen : G A → List A
  | .top s => s
  | .row _ _ s => s
  | .rest s _ => s
  | .over => []

theorem joinerNext_eq [DecidableEq A] [BEq K] (c : Code σ A K E) (src : Source A K) (sw : Bool)
    (hk : c.kind = .left sw ∨ (c.kind = .outer ∧ sw = false)) (rows : List A) (s : JoinerState A)
    (g : G A) (hs : SimJ s g) (n : ℕ) (W : World σ) :
    gNext c src rows g n W = gEnd c rows g.seen (joinerNext c src sw s n W) ∧
    (∀ p, (joinerNext c src sw s n W).1 = .yield p → Suspended (joinerNext c src sw s n W).2.1) := by
  obtain ⟨a, o⟩ := s
  cases a with
  | top =>
    cases g <;> try exact hs.elim
    exact joinerTop_eq c src sw hk rows _ n o hs W
  | over => cases g <;> exact hs.elim
  | row l ones =>
    cases g <;> try exact hs.elim
    obtain ⟨rfl, rfl, rfl⟩ := hs
    rename_i it seen
    simp only [joinerNext, gNext, innerGen]
    rcases h4 : scan c l it W with ⟨_ | _ | _ | _, W4⟩
    · refine ⟨?_, fun p _ => Or.inl ⟨l, _, rfl⟩⟩
      simp only [gEnd, G.seen]
      rw [pairOf_eq c.kind sw hk]
      rcases hk with h | ⟨h, _⟩
      · cases sw <;> simp [h, Kind.pair]
      · simp [h, Kind.pair]
    · exact joinerTop_eq c src sw hk rows _ n _ rfl W4
    · exact ⟨rfl, by simp⟩
    · exact ⟨rfl, by simp⟩

theorem sameStep_left [DecidableEq A] [BEq K] (c : Code σ A K E) (src : Source A K) (sw : Bool)
    (hk : c.kind = .left sw) (s : JoinerState A) (g : G A) (hs : Sim c.kind (.left sw s) g) (n : ℕ)
    (W : World σ) : SameStep c.kind (next c src [] (.left sw s) n W) (gNext c src [] g n W) := by
  by_cases ho : g = .over
  · subst ho
    obtain ⟨a, o⟩ := s
    cases a <;> try exact hs.elim
    exact ⟨rfl, rfl, by simp [next, joinerNext]⟩
  · have hj : SimJ s g := by
      obtain ⟨a, o⟩ := s
      cases a <;> cases g <;> first | exact hs.elim | exact (ho rfl).elim | exact hs.2
    obtain ⟨h1, h2⟩ := joinerNext_eq c src sw (Or.inl hk) [] s g hj n W
    rw [h1]
    simp only [next]
    revert h2
    rcases joinerNext c src sw s n W with ⟨_ | _ | _ | _, s', n', W'⟩
    · intro h2
      rcases h2 _ rfl with ⟨l, it, rfl⟩ | ⟨o, rfl, hf⟩
      · exact ⟨rfl, rfl, fun _ _ => ⟨hk, rfl, rfl, rfl⟩⟩
      · exact ⟨rfl, rfl, fun _ _ => ⟨hk, hf⟩⟩
    · intro _; exact ⟨rfl, rfl, by simp⟩
    · intro _; exact ⟨rfl, rfl, by simp⟩
    · intro _; exact ⟨rfl, rfl, by simp⟩

theorem addRest_eq [DecidableEq A] (none_ : A) (seen : List A) : ∀ xs : List A,
    (addRest (E := E) none_ seen xs).1 = (gRest (E := E) none_ seen xs).1 ∧
    Sim .outer (.outer (addRest (E := E) none_ seen xs).2) (gRest (E := E) none_ seen xs).2 := by
  intro xs
  induction xs with
  | nil => exact ⟨rfl, rfl⟩
  | cons x xs ih =>
    simp only [addRest, gRest]
    split
    · exact ih
    · exact ⟨rfl, rfl, rfl, rfl⟩

theorem sameStep_outer [DecidableEq A] [BEq K] (c : Code σ A K E) (src : Source A K) (rows : List A)
    (hk : c.kind = .outer) (s : AddState A) (g : G A) (hs : Sim c.kind (.outer s) g) (n : ℕ)
    (W : World σ) : SameStep c.kind (next c src rows (.outer s) n W) (gNext c src rows g n W) := by
  cases s with
  | over =>
    cases g <;> try exact hs.elim
    exact ⟨rfl, rfl, by simp [next, addNext]⟩
  | second seen xs =>
    cases g <;> try exact hs.elim
    obtain ⟨-, rfl, rfl⟩ := hs
    obtain ⟨h1, h2⟩ := addRest_eq (E := E) c.none_ seen xs
    exact ⟨h1, rfl, fun _ _ => by rw [hk]; exact h2⟩
  | first s seen =>
    have hj : SimJ s g ∧ g.seen = seen := by
      obtain ⟨a, o⟩ := s
      cases a <;> cases g <;> (first | exact hs.elim | exact ⟨hs.2.1, hs.2.2.symm⟩ |
        exact ⟨⟨hs.2.1, hs.2.2.1, hs.2.2.2.1⟩, hs.2.2.2.2.symm⟩)
    obtain ⟨h1, h2⟩ := joinerNext_eq c src false (Or.inr ⟨hk, rfl⟩) rows s g hj.1 n W
    rw [h1, hj.2]
    simp only [next, addNext]
    have h3 : ∀ p, (joinerNext c src false s n W).1 = .yield p →
        (∃ o, (joinerNext c src false s n W).2.1 = ⟨.top, o⟩ ∧ o.finished = false) → p.2 = c.none_ := by
      have : ∀ o, ∀ n W p, (joinerTop c src false o n W).1 = .yield p →
          (∃ o', (joinerTop c src false o n W).2.1 = ⟨.top, o'⟩ ∧ o'.finished = false) →
          p.2 = c.none_ := by
        intro o n W p
        simp only [joinerTop]
        rcases outerNext c src o n W with ⟨⟨l, ones⟩ | _ | _ | _, o1, n1, W1⟩
        · dsimp only
          rcases innerGen c o1 ones W1 with ⟨_ | _ | _ | _, ones', W2⟩
          · rintro - ⟨o', h, -⟩; simp at h
          · intro h _
            simp only [Step.yield.injEq] at h
            rw [← h]; rfl
          · simp
          · simp
        · simp
        · simp
        · simp
      intro p
      obtain ⟨a, o⟩ := s
      cases a with
      | top => exact this _ _ _ _
      | over => simp [joinerNext]
      | row l ones =>
        simp only [joinerNext]
        rcases innerGen c o ones W with ⟨_ | _ | _ | _, ones', W2⟩
        · rintro - ⟨o', h, -⟩; simp at h
        · exact this _ _ _ _
        · simp
        · simp
    revert h2 h3
    rcases joinerNext c src false s n W with ⟨_ | _ | _ | _, s', n', W'⟩
    · intro h2 h3
      rcases h2 _ rfl with ⟨l, it, rfl⟩ | ⟨o, rfl, hf⟩
      · refine ⟨rfl, rfl, fun _ _ => ⟨hk, rfl, rfl, rfl, by simp [hk]⟩⟩
      · refine ⟨rfl, rfl, fun _ _ => ⟨hk, hf, ?_⟩⟩
        rw [h3 _ rfl ⟨o, rfl, hf⟩]
    · intro _ _
      obtain ⟨h1, h2⟩ := addRest_eq (E := E) c.none_ seen rows
      exact ⟨h1, rfl, fun _ _ => by rw [hk]; exact h2⟩
    · intro _ _; exact ⟨rfl, rfl, by simp⟩
    · intro _ _; exact ⟨rfl, rfl, by simp⟩

theorem sameStep [DecidableEq A] [BEq K] (c : Code σ A K E) (src : Source A K) (rows : List A)
    (hr : c.kind ≠ .outer → rows = []) (x : Gen A) (g : G A) (hs : Sim c.kind x g) (n : ℕ)
    (W : World σ) : SameStep c.kind (next c src rows x n W) (gNext c src rows g n W) := by
  cases x with
  | inner s =>
    have hk : c.kind = .inner := by
      cases s <;> cases g <;> first | exact hs.elim | exact hs | exact hs.1
    rw [hr (by simp [hk])]
    exact sameStep_inner c src hk s g hs n W
  | left sw s =>
    have hk : c.kind = .left sw := by
      obtain ⟨a, o⟩ := s
      cases a <;> cases g <;> first | exact hs.elim | exact hs | exact hs.1
    rw [hr (by simp [hk])]
    exact sameStep_left c src sw hk s g hs n W
  | outer s =>
    have hk : c.kind = .outer := by
      cases s with
      | first s seen =>
        obtain ⟨a, o⟩ := s
        cases a <;> cases g <;> first | exact hs.elim | exact hs.1
      | second _ _ => cases g <;> first | exact hs.elim | exact hs.1
      | over => cases g <;> first | exact hs.elim | exact hs
    exact sameStep_outer c src rows hk s g hs n W

theorem consume_eq [DecidableEq A] [BEq K] (c : Code σ A K E) (src : Source A K) (rows : List A)
    (hr : c.kind ≠ .outer → rows = []) (body : A × A → σ → Flow E × σ) : ∀ (k : ℕ) (x : Gen A) (g : G A)
    (_ : Sim c.kind x g) (n : ℕ) (W : World σ),
    consume c src rows body k x n W = gConsume c src rows body k g n W := by
  intro k
  induction k with
  | zero => intros; rfl
  | succ k ih =>
    intro x g hs n W
    have h := sameStep c src rows hr x g hs n W
    revert h
    simp only [consume, gConsume]
    rcases next c src rows x n W with ⟨r, x', n', W'⟩
    rcases gNext c src rows g n W with ⟨r2, g', n2, W2⟩
    rintro ⟨h1, h2, h3⟩
    simp only [Prod.mk.injEq] at h1 h2 h3
    obtain ⟨rfl, rfl⟩ := h2
    subst h1
    cases r with
    | yield p =>
      dsimp only
      rcases body p W'.st with ⟨_ | _ | _, w2⟩
      · exact ih x' g' (h3 p rfl) _ _
      · rfl
      · rfl
    | stop => rfl
    | raise e => rfl
    | out => rfl

/-! ## The machine and the loops -/

/-- The client's loop, with enough steps. -/
def Runs [DecidableEq A] [BEq K] (c : Code σ A K E) (src : Source A K) (rows : List A)
    (body : A × A → σ → Flow E × σ) (g : G A) (n : ℕ) (W : World σ) (res : End E × σ) : Prop :=
  ∃ k0, ∀ k, k0 ≤ k → gConsume c src rows body k g n W = res

section

variable [DecidableEq A] [BEq K] (c : Code σ A K E) (src : Source A K) (rows : List A)
  (body : A × A → σ → Flow E × σ)

/-- The rest of a run after `next`. -/
def After (x : Step (A × A) E × G A × ℕ × World σ) (res : End E × σ) : Prop :=
  match x with
  | (.stop, _, _, W1) => res = (.done, W1.st)
  | (.raise e, _, _, W1) => res = (.raise e, W1.st)
  | (.out, _, _, W1) => res = (.out, W1.st)
  | (.yield p, g', n1, W1) =>
    match body p W1.st with
    | (.brk, w2) => res = (.brk, w2)
    | (.raise e, w2) => res = (.raise e, w2)
    | (.go, w2) => Runs c src rows body g' n1 ⟨W1.right, W1.closed, w2⟩ res

theorem runs_of_after (g : G A) (n : ℕ) (W : World σ) (res : End E × σ)
    (h : After c src rows body (gNext c src rows g n W) res) : Runs c src rows body g n W res := by
  have key : ∀ (x : Step (A × A) E × G A × ℕ × World σ), x = gNext c src rows g n W →
      After c src rows body x res → Runs c src rows body g n W res := by
    rintro ⟨r, g', n', W'⟩ hx ha
    cases r with
    | stop =>
      refine ⟨1, fun k hk => ?_⟩
      obtain ⟨k, rfl⟩ : ∃ j, k = j + 1 := ⟨k - 1, by omega⟩
      rw [gConsume, ← hx]; exact ha.symm
    | raise e =>
      refine ⟨1, fun k hk => ?_⟩
      obtain ⟨k, rfl⟩ : ∃ j, k = j + 1 := ⟨k - 1, by omega⟩
      rw [gConsume, ← hx]; exact ha.symm
    | out =>
      refine ⟨1, fun k hk => ?_⟩
      obtain ⟨k, rfl⟩ : ∃ j, k = j + 1 := ⟨k - 1, by omega⟩
      rw [gConsume, ← hx]; exact ha.symm
    | yield p =>
      simp only [After] at ha
      rcases hb : body p W'.st with ⟨_ | _ | _, w2⟩
      · rw [hb] at ha
        obtain ⟨k0, hk0⟩ := ha
        refine ⟨k0 + 1, fun k hk => ?_⟩
        obtain ⟨k, rfl⟩ : ∃ j, k = j + 1 := ⟨k - 1, by omega⟩
        rw [gConsume, ← hx]
        simp only [hb]
        exact hk0 k (by omega)
      · rw [hb] at ha
        refine ⟨1, fun k hk => ?_⟩
        obtain ⟨k, rfl⟩ : ∃ j, k = j + 1 := ⟨k - 1, by omega⟩
        rw [gConsume, ← hx]
        simp only [hb]; exact ha.symm
      · rw [hb] at ha
        refine ⟨1, fun k hk => ?_⟩
        obtain ⟨k, rfl⟩ : ∃ j, k = j + 1 := ⟨k - 1, by omega⟩
        rw [gConsume, ← hx]
        simp only [hb]; exact ha.symm
  exact key _ rfl h

theorem after_of_runs (g : G A) (n : ℕ) (W : World σ) (res : End E × σ)
    (h : Runs c src rows body g n W res) : After c src rows body (gNext c src rows g n W) res := by
  obtain ⟨k0, h⟩ := h
  have h1 := h (k0 + 1) (by omega)
  rw [gConsume] at h1
  rcases hx : gNext c src rows g n W with ⟨r, g', n', W'⟩
  rw [hx] at h1
  cases r with
  | stop => exact h1.symm
  | raise e => exact h1.symm
  | out => exact h1.symm
  | yield p =>
    simp only [After]
    rcases hb : body p W'.st with ⟨_ | _ | _, w2⟩
    · refine ⟨k0, fun k hk => ?_⟩
      have h2 := h (k + 1) (by omega)
      rw [gConsume, hx] at h2
      simpa only [hb] using h2
    · simp only [hb] at h1; exact h1.symm
    · simp only [hb] at h1; exact h1.symm

theorem gRest_after (seen : List A) : ∀ (xs : List A) (n : ℕ) (W : World σ),
    After c src rows body
      ((gRest c.none_ seen xs).1, (gRest (E := E) c.none_ seen xs).2, n, W)
      (eachUnmatched c body seen xs W.st) := by
  intro xs
  induction xs with
  | nil => intro n W; rfl
  | cons x xs ih =>
    intro n W
    simp only [gRest, eachUnmatched]
    by_cases hx : x ∈ seen
    · simp only [hx, if_true]; exact ih n W
    · simp only [hx, if_false, After]
      rcases hb : body (c.none_, x) W.st with ⟨_ | _ | _, w2⟩
      · exact runs_of_after c src rows body _ _ _ _ (ih n ⟨W.right, W.closed, w2⟩)
      · rfl
      · rfl

/-- The loop over an iterator of right items. -/
def eachIt (l : A) (act : A → σ → Flow E × σ) (it : It A) (W : World σ) : End E × List A × World σ :=
  match it with
  | .priv rs =>
    match eachRow c l act rs W.st with
    | (e, ms, w) => (e, ms, ⟨W.right, W.closed, w⟩)
  | .shared =>
    if W.closed && c.rightFilter.isSome then (.done, [], W) else eachShared c l act W.right W.st

/-- The loop over an iterator, by its first match. -/
theorem eachIt_scan (l : A) (act : A → σ → Flow E × σ) (it : It A) (W : World σ) :
    eachIt c l act it W =
      match scan c l it W with
      | (.none, W1) => (.done, [], W1)
      | (.raise e, W1) => (.raise e, [], W1)
      | (.out, W1) => (.out, [], W1)
      | (.item r rest, W1) =>
        match act r W1.st with
        | (.brk, w2) => (.brk, [r], ⟨W1.right, W1.closed, w2⟩)
        | (.raise e, w2) => (.raise e, [r], ⟨W1.right, W1.closed, w2⟩)
        | (.go, w2) =>
          match eachIt c l act rest ⟨W1.right, W1.closed, w2⟩ with
          | (e, ms, W3) => (e, r :: ms, W3) := by
  cases it with
  | priv rs =>
    obtain ⟨m, cl, w⟩ := W
    simp only [eachIt, scan]
    induction rs generalizing w with
    | nil => rfl
    | cons x xs ih =>
      simp only [eachRow, scanList]
      rcases h : c.holds l x w with ⟨_ | b, w1⟩
      · rfl
      · cases b
        · exact ih w1
        · dsimp only
          rcases act x w1 with ⟨_ | _ | _, w2⟩
          · rfl
          · rfl
          · rfl
  | shared =>
    obtain ⟨m, cl, w⟩ := W
    simp only [eachIt, scan]
    by_cases hc : (cl && c.rightFilter.isSome) = true
    · simp only [hc, if_true]
    · simp only [hc, Bool.false_eq_true, if_false]
      clear hc
      induction m generalizing w with
      | zero => rfl
      | succ m ih =>
        simp only [eachShared, scanShared]
        rcases c.pullR w with ⟨r | _ | e, w1⟩
        · dsimp only
          rcases test c.rightFilter r w1 with ⟨_ | b, w2⟩
          · rfl
          · cases b
            · exact ih w2
            · dsimp only
              rcases c.holds l r w2 with ⟨_ | b, w3⟩
              · rfl
              · cases b
                · exact ih w3
                · dsimp only
                  rcases act r w3 with ⟨_ | _ | _, w4⟩
                  · simp
                  · rfl
                  · rfl
        · rfl
        · rfl

/-- The size of what an iterator may still give. -/
def It.size (it : It A) (W : World σ) : ℕ :=
  match it with
  | .priv rs => rs.length
  | .shared => W.right

theorem scan_size (l : A) (it : It A) (W W1 : World σ) (r : A) (rest : It A)
    (h : scan c l it W = (.item r rest, W1)) (w2 : σ) :
    rest.size ⟨W1.right, W1.closed, w2⟩ < it.size W := by
  cases it with
  | priv rs =>
    obtain ⟨m, cl, w⟩ := W
    simp only [scan] at h
    induction rs generalizing w with
    | nil => simp [scanList] at h
    | cons x xs ih =>
      simp only [scanList] at h
      rcases hh : c.holds l x w with ⟨_ | b, w1⟩
      · simp [hh] at h
      · cases b
        · simp only [hh] at h
          have := ih w1 h
          simp only [It.size, List.length_cons] at this ⊢
          omega
        · simp only [hh, Prod.mk.injEq, Found.item.injEq] at h
          obtain ⟨⟨-, rfl⟩, -⟩ := h
          simp [It.size]
  | shared =>
    obtain ⟨m, cl, w⟩ := W
    simp only [scan] at h
    by_cases hc : (cl && c.rightFilter.isSome) = true
    · simp [hc] at h
    · simp only [hc, Bool.false_eq_true, if_false] at h
      clear hc
      induction m generalizing w with
      | zero => simp [scanShared] at h
      | succ m ih =>
        simp only [scanShared] at h
        rcases hp : c.pullR w with ⟨r | _ | e, w1⟩
        · simp only [hp] at h
          rcases ht : test c.rightFilter r w1 with ⟨_ | b, w2⟩
          · simp [ht] at h
          · simp only [ht] at h
            cases b
            · have := ih w2 h
              simp only [It.size] at this ⊢
              omega
            · dsimp only at h
              rcases hh : c.holds l r w2 with ⟨_ | b, w3⟩
              · simp [hh] at h
              · simp only [hh] at h
                cases b
                · have := ih w3 h
                  simp only [It.size] at this ⊢
                  omega
                · simp only [Prod.mk.injEq, Found.item.injEq] at h
                  obtain ⟨⟨-, rfl⟩, rfl⟩ := h
                  simp [It.size]
        · simp [hp] at h
        · simp [hp] at h

end

end Verif.JoinGen
