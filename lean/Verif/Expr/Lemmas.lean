import Verif.Expr.Spec

/-!
# Expressions: simulation of direct evaluation by generated code
-/

set_option autoImplicit false

namespace Verif.Expr

section
variable {Val U Err : Type}

/-- Same state up to the labels made by `If`. -/
def St.Same (s t : St Val U) : Prop := s.labels = t.labels ∧ s.u = t.u

theorem St.Same.rfl' (s : St Val U) : s.Same s := ⟨rfl, rfl⟩

/-- `m` does what `d` does, from states with `P`; `P` and `Q` are kept; with `b`, `Q` holds after `m` has
returned a value. -/
def Sim (P Q : St Val U → Prop) (b : Bool) {α : Type} (m d : M Val U Err α) : Prop :=
  ∀ s t, P s → s.Same t →
    (m s).1 = (d t).1 ∧ (m s).2.Same (d t).2 ∧ P (m s).2 ∧ (Q s → Q (m s).2) ∧
      (b = true → ∀ x, (m s).1 = .ok x → Q (m s).2)

/-- `m` may return `x`. -/
def May {α : Type} (m : M Val U Err α) (x : α) : Prop := ∃ t t', m t = (.ok x, t')

theorem bind_run {α β : Type} (m : M Val U Err α) (k : α → M Val U Err β) (s : St Val U) :
    (m >>= k) s = match m s with
      | (.ok x, s') => k x s'
      | (.error e, s') => (.error e, s') := rfl

theorem pure_bind' {α β : Type} (x : α) (k : α → M Val U Err β) : (pure x >>= k) = k x := rfl

variable {P Q : St Val U → Prop}

theorem Sim.weaken {b b' : Bool} {α : Type} {m d : M Val U Err α} (h : Sim P Q b m d)
    (hb : b' = true → b = true) : Sim P Q b' m d := by
  intro s t hP hst
  obtain ⟨h1, h2, h3, h4, h5⟩ := h s t hP hst
  exact ⟨h1, h2, h3, h4, fun hb' => h5 (hb hb')⟩

theorem Sim.none {b : Bool} {α : Type} {m d : M Val U Err α} (h : Sim P Q b m d) : Sim P Q false m d :=
  h.weaken (by simp)

theorem Sim.pure {α : Type} (x : α) : Sim P Q false (pure x : M Val U Err α) (pure x) := by
  intro s t hP hst
  exact ⟨rfl, hst, hP, id, by simp⟩

theorem Sim.fail {α : Type} (b : Bool) (e : Err) : Sim P Q b (fail e : M Val U Err α) (fail e) := by
  intro s t hP hst
  exact ⟨rfl, hst, hP, id, by simp [Expr.fail]⟩

theorem Sim.bind {b1 b2 : Bool} {α β : Type} {m d : M Val U Err α} {k k' : α → M Val U Err β}
    (h : Sim P Q b1 m d) (hk : ∀ x, May d x → Sim P Q b2 (k x) (k' x)) :
    Sim P Q (b1 || b2) (m >>= k) (d >>= k') := by
  intro s t hP hst
  obtain ⟨h1, h2, h3, h4, h5⟩ := h s t hP hst
  rw [bind_run, bind_run]
  rcases hm : m s with ⟨r, s'⟩
  rcases hd : d t with ⟨r', t'⟩
  rw [hm] at h1 h2 h3 h4 h5
  rw [hd] at h1 h2
  simp only at h1 h2 h3 h4 h5
  subst h1
  cases r with
  | error e => exact ⟨rfl, h2, h3, h4, by simp⟩
  | ok x =>
    obtain ⟨g1, g2, g3, g4, g5⟩ := hk x ⟨t, t', hd⟩ s' t' h3 h2
    refine ⟨g1, g2, g3, fun hq => g4 (h4 hq), ?_⟩
    intro hb y hy
    simp only [Bool.or_eq_true] at hb
    rcases hb with hb | hb
    · exact g4 (h5 hb x rfl)
    · exact g5 hb y hy

theorem Sim.onError {b : Bool} {α : Type} {m d : M Val U Err α} {k k' : Err → M Val U Err α}
    (h : Sim P Q b m d) (hk : ∀ x, Sim P Q b (k x) (k' x)) :
    Sim P Q b (onError m k) (onError d k') := by
  intro s t hP hst
  obtain ⟨h1, h2, h3, h4, h5⟩ := h s t hP hst
  unfold Expr.onError
  rcases hm : m s with ⟨r, s'⟩
  rcases hd : d t with ⟨r', t'⟩
  rw [hm] at h1 h2 h3 h4 h5
  rw [hd] at h1 h2
  simp only at h1 h2 h3 h4 h5
  subst h1
  cases r with
  | ok x => exact ⟨rfl, h2, h3, h4, h5⟩
  | error e =>
    obtain ⟨g1, g2, g3, g4, g5⟩ := hk e s' t' h3 h2
    exact ⟨g1, g2, g3, fun hq => g4 (h4 hq), g5⟩

theorem Sim.inGen {b : Bool} (R : Runtime Val U Err) {α : Type} {m d : M Val U Err α} (h : Sim P Q b m d) :
    Sim P Q b (inGen R m) (inGen R d) :=
  h.onError (fun e => Sim.fail b _)

/-- `I` is kept by the operations of the runtime, by setting the labels `ns`, and by setting cached
labels below the place `p`. -/
structure Closed (R : Runtime Val U Err) (I : St Val U → Prop) (ns : List String) (p : List Nat) : Prop where
  op : ∀ o as s, I s → I { s with u := (R.op o as s.u).2 }
  truthy : ∀ x s, I s → I { s with u := (R.truthy x s.u).2 }
  next : ∀ x s, I s → I { s with u := (R.next x s.u).2 }
  user : ∀ n ∈ ns, ∀ x s, I s → I { s with labels := fun m => if m = n then some x else s.labels m }
  cached : ∀ q, p <+: q → ∀ x s, I s → I { s with cached := fun r => if r = q then some x else s.cached r }

theorem Closed.mono {R : Runtime Val U Err} {I : St Val U → Prop} {ns ns' : List String} {p p' : List Nat}
    (h : Closed R I ns p) (hn : ∀ n ∈ ns', n ∈ ns) (hp : p <+: p') : Closed R I ns' p' where
  op := h.op
  truthy := h.truthy
  next := h.next
  user n hn' := h.user n (hn n hn')
  cached q hq := h.cached q (hp.trans hq)

theorem Closed.and {R : Runtime Val U Err} {I J : St Val U → Prop} {ns : List String} {p : List Nat}
    (h : Closed R I ns p) (h' : Closed R J ns p) : Closed R (fun s => I s ∧ J s) ns p where
  op o as s hs := ⟨h.op o as s hs.1, h'.op o as s hs.2⟩
  truthy x s hs := ⟨h.truthy x s hs.1, h'.truthy x s hs.2⟩
  next x s hs := ⟨h.next x s hs.1, h'.next x s hs.2⟩
  user n hn x s hs := ⟨h.user n hn x s hs.1, h'.user n hn x s hs.2⟩
  cached q hq x s hs := ⟨h.cached q hq x s hs.1, h'.cached q hq x s hs.2⟩

/-- A cached label elsewhere is kept. -/
theorem Closed.cachedIs (R : Runtime Val U Err) {ns : List String} {p q : List Nat} (hq : ¬ p <+: q)
    (y : Option Val) : Closed R (fun s => s.cached q = y) ns p where
  op o as s hs := hs
  truthy x s hs := hs
  next x s hs := hs
  user n hn x s hs := hs
  cached r hr x s hs := by
    have : q ≠ r := by rintro rfl; exact hq hr
    simpa [this] using hs

/-- A label of the user which is not set again is kept. -/
theorem Closed.labelIs (R : Runtime Val U Err) {ns : List String} {p : List Nat} {n : String} (hn : n ∉ ns)
    (y : Option Val) : Closed R (fun s => s.labels n = y) ns p where
  op o as s hs := hs
  truthy x s hs := hs
  next x s hs := hs
  user m hm x s hs := by
    have : n ≠ m := by rintro rfl; exact hn hm
    simpa [this] using hs
  cached r hr x s hs := hs

variable {R : Runtime Val U Err} {ns : List String} {p : List Nat}

theorem Sim.op (hP : Closed R P ns p) (hQ : Closed R Q ns p) (o : Op) (as : List Val) :
    Sim P Q false (runOp R o as) (runOp R o as) := by
  intro s t hs hst
  obtain ⟨h1, h2⟩ := hst
  refine ⟨by simp only [runOp, h2], ⟨h1, by simp only [runOp, h2]⟩, ?_, ?_, by simp⟩
  · exact hP.op o as s hs
  · exact fun hq => hQ.op o as s hq

theorem Sim.truthy (hP : Closed R P ns p) (hQ : Closed R Q ns p) (x : Val) :
    Sim P Q false (runTruthy R x) (runTruthy R x) := by
  intro s t hs hst
  obtain ⟨h1, h2⟩ := hst
  refine ⟨by simp only [runTruthy, h2], ⟨h1, by simp only [runTruthy, h2]⟩, ?_, ?_, by simp⟩
  · exact hP.truthy x s hs
  · exact fun hq => hQ.truthy x s hq

theorem Sim.next (hP : Closed R P ns p) (hQ : Closed R Q ns p) (x : Val) :
    Sim P Q false (runNext R x) (runNext R x) := by
  intro s t hs hst
  obtain ⟨h1, h2⟩ := hst
  refine ⟨by simp only [runNext, h2], ⟨h1, by simp only [runNext, h2]⟩, ?_, ?_, by simp⟩
  · exact hP.next x s hs
  · exact fun hq => hQ.next x s hq

theorem Sim.get (n : String) : Sim P Q false (runGet R (.user n)) (runGet R (.user n)) := by
  intro s t hs hst
  obtain ⟨h1, h2⟩ := hst
  simp only [runGet, h1]
  cases t.labels n <;> exact ⟨rfl, ⟨h1, h2⟩, hs, id, by simp⟩

theorem Sim.set (hP : Closed R P ns p) (hQ : Closed R Q ns p) {n : String} (hn : n ∈ ns) (x : Val) :
    Sim P Q false (runSet (.user n) x : M Val U Err Unit) (setLabel n x) := by
  intro s t hs hst
  obtain ⟨h1, h2⟩ := hst
  refine ⟨rfl, ⟨?_, h2⟩, hP.user n hn x s hs, fun hq => hQ.user n hn x s hq, by simp⟩
  simp only [runSet, setLabel, h1]

/-- Iterating `v` may give `x`. -/
def Elem (R : Runtime Val U Err) (v x : Val) : Prop :=
  ∃ it u u' w w', R.op .iter [v] u = (.ok it, u') ∧ R.next it w = (.ok (some x), w')

theorem Sim.loop (hP : Closed R P ns p) (hQ : Closed R Q ns p) (it : Val)
    (body body' : Val → M Val U Err (List Val))
    (hb : ∀ x w w', R.next it w = (.ok (some x), w') → Sim P Q false (body x) (body' x)) (n : Nat) :
    Sim P Q false (loop R it body n) (loop R it body' n) := by
  induction n with
  | zero => exact Sim.fail false _
  | succ n ih =>
    simp only [Expr.loop]
    refine Sim.bind (b1 := false) (b2 := false) (Sim.next hP hQ it) ?_
    rintro r ⟨t, t', ht⟩
    cases r with
    | none => exact Sim.pure _
    | some x =>
      have hx : R.next it t.u = (.ok (some x), t'.u) := by
        simp only [runNext, Prod.mk.injEq] at ht
        exact Prod.ext ht.1 (by rw [← ht.2])
      refine Sim.bind (b1 := false) (b2 := false) (hb x _ _ hx) (fun ys _ => ?_)
      refine Sim.bind (b1 := false) (b2 := false) ih (fun rest _ => Sim.pure _)

theorem Sim.finish (hP : Closed R P ns p) (hQ : Closed R Q ns p) (k : Kind)
    (sort : Option (Lit Val × Bool)) (xs : List Val) :
    Sim P Q false (finish R k sort xs) (finish R k sort xs) := by
  unfold Expr.finish
  split
  · exact Sim.op hP hQ _ _
  · refine Sim.bind (b1 := false) (b2 := false) (Sim.op hP hQ _ _) (fun s _ => ?_)
    split
    · exact Sim.op hP hQ _ _
    · exact Sim.op hP hQ _ _
    · exact Sim.pure _

theorem Sim.addItem (hP : Closed R P ns p) (hQ : Closed R Q ns p) (k : Kind)
    (sort : Option (Lit Val × Bool)) {x x' y y' : M Val U Err Val} (hx : Sim P Q false x x')
    (hy : Sim P Q false y y') : Sim P Q false (addItem R k sort x y) (addItem R k sort x' y') := by
  unfold Expr.addItem
  split
  · refine Sim.bind (b1 := false) (b2 := false) hx (fun a _ => ?_)
    exact Sim.bind (b1 := false) (b2 := false) (Sim.op hP hQ _ _) (fun _ _ => Sim.pure _)
  · refine Sim.bind (b1 := false) (b2 := false) hx (fun a _ => ?_)
    refine Sim.bind (b1 := false) (b2 := false) hy (fun b _ => ?_)
    exact Sim.bind (b1 := false) (b2 := false) (Sim.op hP hQ _ _) (fun _ _ => Sim.pure _)
  · refine Sim.bind (b1 := false) (b2 := false) hx (fun a _ => ?_)
    refine Sim.bind (b1 := false) (b2 := false) hy (fun b _ => ?_)
    exact Sim.bind (b1 := false) (b2 := false) (Sim.op hP hQ _ _) (fun _ _ => Sim.pure _)
  · exact Sim.bind (b1 := false) (b2 := false) hx (fun a _ => Sim.pure _)

end

end Verif.Expr
