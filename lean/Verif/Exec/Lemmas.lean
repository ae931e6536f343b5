import Verif.Exec.Spec

/-!
# Exec: computations which do the same

Building blocks of the proof in `Verif/Exec/Correct.lean`.
-/

set_option autoImplicit false

namespace Verif.Exec

open Verif.Expr Verif.Text

section
variable {Val U Err : Type} {N : Names Val} {R : Runtime Val U Err} {G : Globals Val}

theorem Same.pure {α : Type} (x : α) : Same (U := U) (Err := Err) N (Pure.pure x) (Pure.pure x) :=
  fun _ _ h => ⟨rfl, h⟩

theorem Same.fail {α : Type} (e : Err) : Same (U := U) (α := α) N (Expr.fail e) (Expr.fail e) :=
  fun _ _ h => ⟨rfl, h⟩

theorem Same.bind {α β : Type} {m m' : M Val U Err α} {k k' : α → M Val U Err β} (h : Same N m m')
    (hk : ∀ x, Same N (k x) (k' x)) : Same N (m >>= k) (m' >>= k') := by
  intro s t hst
  obtain ⟨h1, h2⟩ := h s t hst
  show (match m s with
    | (.ok x, s') => k x s'
    | (.error e, s') => (.error e, s')).1 = (match m' t with
    | (.ok x, s') => k' x s'
    | (.error e, s') => (.error e, s')).1 ∧ Joined N (match m s with
    | (.ok x, s') => k x s'
    | (.error e, s') => (.error e, s')).2 (match m' t with
    | (.ok x, s') => k' x s'
    | (.error e, s') => (.error e, s')).2
  cases hm : m s with
  | mk r s' =>
    cases hm' : m' t with
    | mk r' t' =>
      rw [hm, hm'] at h1 h2
      dsimp only at h1 h2
      subst h1
      cases r with
      | ok x => exact hk x s' t' h2
      | error e => exact ⟨rfl, h2⟩

theorem Same.onError {α : Type} {m m' : M Val U Err α} {k k' : Err → M Val U Err α} (h : Same N m m')
    (hk : ∀ e, Same N (k e) (k' e)) : Same N (Expr.onError m k) (Expr.onError m' k') := by
  intro s t hst
  obtain ⟨h1, h2⟩ := h s t hst
  unfold Expr.onError
  cases hm : m s with
  | mk r s' =>
    cases hm' : m' t with
    | mk r' t' =>
      rw [hm, hm'] at h1 h2
      dsimp only at h1 h2
      subst h1
      cases r with
      | ok x => exact ⟨rfl, h2⟩
      | error e => exact hk e s' t' h2

theorem Same.ite {α : Type} {m m' n n' : M Val U Err α} {c : Prop} [Decidable c] (h : Same N m m')
    (h' : Same N n n') : Same N (if c then m else n) (if c then m' else n') := by
  split
  · exact h
  · exact h'

theorem Same.op (o : Op) (xs : List Val) : Same N (runOp R o xs) (runOp R o xs) := by
  intro s t h
  refine ⟨by simp only [runOp, h.u], ?_⟩
  simp only [runOp, h.u]
  exact ⟨rfl, h.user, h.cached⟩

theorem Same.truthy (x : Val) : Same N (runTruthy R x) (runTruthy R x) := by
  intro s t h
  refine ⟨by simp only [runTruthy, h.u], ?_⟩
  simp only [runTruthy, h.u]
  exact ⟨rfl, h.user, h.cached⟩

theorem Same.next (x : Val) : Same N (runNext R x) (runNext R x) := by
  intro s t h
  refine ⟨by simp only [runNext, h.u], ?_⟩
  simp only [runNext, h.u]
  exact ⟨rfl, h.user, h.cached⟩

theorem Same.inGen {α : Type} {m m' : M Val U Err α} (h : Same N m m') : Same N (inGen R m) (inGen R m') :=
  h.onError (fun _ => Same.fail _)

theorem Same.loop (it : Val) {body body' : Val → M Val U Err (List Val)} (h : ∀ x, Same N (body x) (body' x)) :
    ∀ n, Same N (loop R it body n) (loop R it body' n)
  | 0 => Same.fail _
  | n + 1 => by
    refine (Same.next it).bind (fun r => ?_)
    cases r with
    | none => exact Same.pure _
    | some x => exact (h x).bind (fun ys => (Same.loop it h n).bind (fun rest => Same.pure _))

/-- A label is read by its name. -/
theorem Same.get (hR : PyConsts R N) {l : Lbl} (hl : labelOk N l) :
    Same N (runGet R l) (runGet R (.user (l.text N))) := by
  intro s t h
  cases l with
  | user n =>
    simp only [runGet, Lbl.text, h.user n hl]
    cases ht : t.labels n with
    | none => exact ⟨rfl, h⟩
    | some x => exact ⟨rfl, h⟩
  | cached p =>
    simp only [runGet, Lbl.text, h.cached p]
    cases ht : t.labels (N.cached p) with
    | none => exact ⟨by simp only [hR.missing p], h⟩
    | some x => exact ⟨rfl, h⟩

/-- A label is set by its name. -/
theorem Same.set (hc : ∀ p q, N.cached p = N.cached q → p = q) {l : Lbl} (hl : labelOk N l) (x : Val) :
    Same (U := U) (Err := Err) N (runSet l x) (runSet (.user (l.text N)) x) := by
  intro s t h
  cases l with
  | user n =>
    rw [show (Lbl.user n).text N = n from rfl]
    refine ⟨rfl, h.u, fun m hm => ?_, fun p => ?_⟩
    · show (if m = n then some x else s.labels m) = if m = n then some x else t.labels m
      rw [h.user m hm]
    · show s.cached p = if N.cached p = n then some x else t.labels (N.cached p)
      rw [if_neg (hl p)]
      exact h.cached p
  | cached p =>
    rw [show (Lbl.cached p).text N = N.cached p from rfl]
    refine ⟨rfl, h.u, fun m hm => ?_, fun q => ?_⟩
    · show s.labels m = if m = N.cached p then some x else t.labels m
      rw [if_neg (fun e => hm p e.symm)]
      exact h.user m hm
    · show (if q = p then some x else s.cached q) = if N.cached q = N.cached p then some x else t.labels (N.cached q)
      by_cases hq : q = p
      · rw [if_pos hq, if_pos (by rw [hq])]
      · rw [if_neg hq, if_neg (fun e => hq (hc q p e))]
        exact h.cached q

/-- `(a and None or b)`. -/
theorem same_attach (hR : PyConsts R N) {a a' b b' : M Val U Err Val} (ha : Same N a a') (hb : Same N b b') :
    Same N (do
      let x ← a
      let _ ← runTruthy R x
      b) (do
      let x ← (do
        let y ← a'
        let t ← runTruthy R y
        if t = true then Pure.pure R.none else Pure.pure y)
      let t ← runTruthy R x
      if t = false then b' else Pure.pure x) := by
  have key : ∀ y, (do
      let x ← (do
        let t ← runTruthy R y
        if t = true then Pure.pure R.none else Pure.pure y)
      let t ← runTruthy R x
      if t = false then b' else Pure.pure x) = (do
      let _ ← runTruthy R y
      b' : M Val U Err Val) := by
    intro y
    funext s
    cases h : R.truthy y s.u with
    | mk r u =>
      cases r with
      | error e => simp [Bind.bind, runTruthy, h]
      | ok b =>
        cases b with
        | true => simp [Bind.bind, Pure.pure, runTruthy, h, hR.none]
        | false => simp [Bind.bind, Pure.pure, runTruthy, h, hR.again y s.u u h]
  have assoc : (do
      let x ← (do
        let y ← a'
        let t ← runTruthy R y
        if t = true then Pure.pure R.none else Pure.pure y)
      let t ← runTruthy R x
      if t = false then b' else Pure.pure x) = (a' >>= fun y => do
      let x ← (do
        let t ← runTruthy R y
        if t = true then Pure.pure R.none else Pure.pure y)
      let t ← runTruthy R x
      if t = false then b' else Pure.pure x : M Val U Err Val) := by
    funext s
    simp only [Bind.bind]
    cases a' s with
    | mk r s' => cases r <;> rfl
  rw [assoc]
  exact ha.bind (fun y => by rw [key y]; exact (Same.truthy y).bind (fun _ => hb))

/-! ## Variables -/

theorem lookup_var {ρ : Env Val} {n : String} (h : varName G n) : lookup R G ρ n = runName R ρ n := by
  have hc := h.2
  simp only [isConstName, Bool.or_eq_false_iff, beq_eq_false_iff_ne, ne_eq] at hc
  unfold lookup runName
  rw [if_neg hc.1.1, if_neg hc.1.2, if_neg hc.2, h.1]
  cases ρ n <;> rfl

theorem Same.name {ρ : Env Val} {n : String} (h : varName G n) : Same N (runName R ρ n) (lookup R G ρ n) := by
  rw [lookup_var h]
  unfold runName
  split
  · exact Same.pure _
  · exact Same.fail _

theorem callee_var {ρ : Env Val} {n : String} (h : varName G n) : callee G ρ (.name n) = none := by
  simp only [callee, h.1]
  cases ρ n <;> simp

/-- A function of the module is called by its name. -/
theorem callee_def {ρ : Env Val} (hρ : Clear G ρ) {n : String} {d : Def} (h : G n = some (.def_ d))
    (hn : isConstName n = false) : callee G ρ (.name n) = some (.def_ d) := by
  simp [callee, hρ n (by rw [h]; rfl), h, hn]

theorem callee_builtin {ρ : Env Val} (hρ : Clear G ρ) {n : String} {b : Builtin} (h : G n = some (.builtin b))
    (hn : isConstName n = false) : callee G ρ (.name n) = some (.builtin b) := by
  simp [callee, hρ n (by rw [h]; rfl), h, hn]

theorem Clear.set {ρ : Env Val} (h : Clear G ρ) {x : String} (hx : varName G x) (v : Val) : Clear G (ρ.set x v) := by
  intro n hn
  unfold Env.set
  have : n ≠ x := by
    rintro rfl
    rw [hx.1] at hn
    simp at hn
  rw [if_neg this]
  exact h n hn

end

end Verif.Exec
