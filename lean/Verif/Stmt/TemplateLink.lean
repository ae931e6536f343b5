import Verif.Stmt.TemplateTags
import Verif.Stmt.TemplateBlock
import Verif.Stmt.AggParam

/-!
# Stmt: aggregations with built-in reducers

Source: `/repo/src/convtools/aggregations.py` lines 285-483, 876-914.
-/

set_option autoImplicit false

namespace Verif.Stmt

open Verif.Text Verif.Agg Verif.Reducers

variable {V E : Type}

/-- `unconditional_init` in the table of statements (285-483); without it the default is `False` (60). -/
def Fn.uncond : Fn → Bool
  | .max | .min | .maxRow | .minRow | .dictMax | .dictMin => false
  | _ => true

theorem Fn.uncond_eq [BEq V] (ops : Ops V E) (f : Fn) : f.uncond = (f.reducer ops).uncond := by
  cases f <;> rfl

/-- A `c.reduce(...)` of a built-in reducer (788-914): the reducer, the codes, how the codes are read, and what they
mean: the values of the expression and of the additional argument in a row, and the value of `initial`. -/
structure BRed (V E : Type) where
  f : Fn
  codes : Codes
  ia : Option Ast
  xa : Ast
  ya : Ast
  cond : Option CondSrc
  x : V → Except E V
  y : V → Except E V
  initial : Option V

/-- `gen_reduce_code_block` (876-914). -/
def BRed.text (u : BRed V E) : TRed where
  gen := fun var flag => (genBlock u.f.template u.codes var flag).getD ⟨[], [], [], none, 0⟩
  uncond := u.f.uncond

/-- `code_hash` (643-648) of reduce number `i`. -/
def BRed.hash (m : Bool) (i : Nat) (u : BRed V E) : String := String.ofList (codeHash (textOf m i u.text))

/-- Reduce number `i` as the model of aggregations has it. -/
def BRed.red (P : Py V E) (ops : Ops V E) (m : Bool) (i : Nat) (u : BRed V E) : Red V (Slot V) E :=
  redOf (@Fn.reducer V E P.beq ops u.f) (u.hash m i) u.codes.cond u.initial u.x u.y

/-- The reduces number `i` and the following ones. -/
def redsFrom (P : Py V E) (ops : Ops V E) (m : Bool) : Nat → List (BRed V E) → List (Red V (Slot V) E)
  | _, [] => []
  | i, u :: us => u.red P ops m i :: redsFrom P ops m (i + 1) us

/-- The same on what the variables hold. -/
def liftsFrom (P : Py V E) (ops : Ops V E) (m : Bool) : Nat → List (BRed V E) → List (Red V (DVal V) E)
  | _, [] => []
  | i, u :: us => liftRed P ops u.f (u.red P ops m i) :: liftsFrom P ops m (i + 1) us

/-- The first reduce with this hash, among number `i` and the following ones. -/
def firstWithHash (m : Bool) (h : String) : Nat → List (BRed V E) → Option (BRed V E)
  | _, [] => none
  | i, u :: us => if u.hash m i = h then some u else firstWithHash m h (i + 1) us

/-- Reduces with the same hash keep the same kind of value. -/
def SameKinds (m : Bool) (us : List (BRed V E)) : Prop :=
  ∀ (i j : Nat) (u v : BRed V E), us[i]? = some u → us[j]? = some v → u.hash m i = v.hash m j →
    u.f.tag = v.f.tag ∧ u.f.factory = v.f.factory

/-- What variables hold, by the hash of their reduce. -/
def kinds (P : Py V E) (ops : Ops V E) (m : Bool) (us : List (BRed V E)) (h : String) : Option (DVal V) → Prop :=
  match firstWithHash m h 0 us with
  | some u => u.f.kind P ops
  | none => fun _ => True

/-- What variables hold and the slots of the models. -/
def slotKinds (P : Py V E) (ops : Ops V E) (m : Bool) (us : List (BRed V E)) (h : String) :
    Option (Slot V) → Option (DVal V) → Prop :=
  match firstWithHash m h 0 us with
  | some u => fun a b => u.f.Holds a ∧ b = a.map (enc P ops u.f.factory)
  | none => fun a b => a = none ∧ b = none

theorem firstWithHash_some {m : Bool} {h : String} : ∀ {us : List (BRed V E)} {i n : Nat} {u : BRed V E},
    us[n]? = some u → u.hash m (i + n) = h → ∃ n' u', us[n']? = some u' ∧ u'.hash m (i + n') = h ∧
      firstWithHash m h i us = some u'
  | [], _, _, _, hu, _ => by simp at hu
  | v :: us, i, n, u, hu, hh => by
    simp only [firstWithHash]
    by_cases hv : v.hash m i = h
    · exact ⟨0, v, rfl, hv, by rw [if_pos hv]⟩
    · cases n with
      | zero =>
        simp only [List.getElem?_cons_zero, Option.some.injEq] at hu
        subst hu
        exact absurd hh hv
      | succ n =>
        obtain ⟨n', u', h1, h2, h3⟩ := firstWithHash_some (m := m) (h := h) (i := i + 1) (n := n) (us := us) hu
          (by rw [← hh]; congr 1; omega)
        exact ⟨n' + 1, u', h1, by rw [← h2]; congr 1; omega, by rw [if_neg hv]; exact h3⟩

section
variable {P : Py V E} {ops : Ops V E} {m : Bool} {us : List (BRed V E)}

theorem kind_of {f g : Fn} (h1 : f.tag = g.tag) (h2 : f.factory = g.factory) : f.kind P ops = g.kind P ops := by
  funext v
  simp only [Fn.kind, h1, h2]

theorem kinds_at (hs : SameKinds m us) {n : Nat} {u : BRed V E} (hu : us[n]? = some u) :
    kinds P ops m us (u.hash m n) = u.f.kind P ops := by
  obtain ⟨n', u', h1, h2, h3⟩ := firstWithHash_some (m := m) (i := 0) hu (by rw [Nat.zero_add])
  rw [Nat.zero_add] at h2
  obtain ⟨h4, h5⟩ := hs _ _ _ _ h1 hu h2
  simp only [kinds, h3]
  exact kind_of h4 h5

theorem slotKinds_at (hs : SameKinds m us) {n : Nat} {u : BRed V E} (hu : us[n]? = some u) :
    slotKinds P ops m us (u.hash m n) = fun a b => u.f.Holds a ∧ b = a.map (enc P ops u.f.factory) := by
  obtain ⟨n', u', h1, h2, h3⟩ := firstWithHash_some (m := m) (i := 0) hu (by rw [Nat.zero_add])
  rw [Nat.zero_add] at h2
  obtain ⟨h4, h5⟩ := hs _ _ _ _ h1 hu h2
  simp only [slotKinds, h3]
  funext a b
  simp only [Fn.Holds, h4, h5]

theorem kinds_none (h : String) : kinds P ops m us h none := by
  unfold kinds
  cases firstWithHash m h 0 us with
  | none => trivial
  | some u =>
    intro d hd
    cases hd

theorem slotKinds_pairing (h : String) : Pairing (slotKinds P ops m us h) := by
  unfold slotKinds
  cases firstWithHash m h 0 us with
  | none => exact ⟨⟨rfl, rfl⟩, by rintro a b ⟨rfl, rfl⟩; rfl⟩
  | some u =>
    refine ⟨⟨u.f.holds_none, rfl⟩, ?_⟩
    rintro a b ⟨_, rfl⟩
    cases a <;> rfl

theorem redsFrom_get : ∀ {us : List (BRed V E)} {i n : Nat},
    (redsFrom P ops m i us)[n]? = (us[n]?).map (fun u => u.red P ops m (i + n))
  | [], _, _ => by simp [redsFrom]
  | u :: us, i, 0 => by simp [redsFrom]
  | u :: us, i, n + 1 => by
    simp only [redsFrom, List.getElem?_cons_succ, redsFrom_get (us := us)]
    congr 1
    funext v
    rw [Nat.add_assoc, Nat.add_comm 1 n]

theorem redsFrom_length : ∀ {us : List (BRed V E)} {i : Nat}, (redsFrom P ops m i us).length = us.length
  | [], _ => rfl
  | u :: us, i => by simp [redsFrom, redsFrom_length (us := us)]

/-- The steps of a reduce, and the same on what the variable holds. -/
theorem step_rel {f : Fn} {step : V → Option (Slot V) → Except E (Option (Slot V))}
    (ht : ∀ row a t, f.Holds a → step row a = .ok t → f.Holds t) {row : V} {a : Option (Slot V)} {b : Option (DVal V)}
    (h : f.Holds a ∧ b = a.map (enc P ops f.factory)) :
    ResRel (fun a b => f.Holds a ∧ b = a.map (enc P ops f.factory)) (step row a) (liftStep P ops f step row b) := by
  obtain ⟨ha, rfl⟩ := h
  have : (a.map (enc P ops f.factory)).bind (dcd P f.tag) = a := by
    cases a with
    | none => rfl
    | some s => exact dcd_enc P ops _ (ha s rfl)
  simp only [liftStep, this]
  cases hs : step row a with
  | error e => exact .error e
  | ok t => exact .ok ⟨ht _ _ _ ha hs, rfl⟩

theorem lift_rel (u : BRed V E) (i : Nat) :
    RedRel (fun a b => u.f.Holds a ∧ b = a.map (enc P ops u.f.factory)) (u.red P ops m i) (liftRed P ops u.f (u.red P ops m i)) where
  hash := rfl
  cond := rfl
  uncond := rfl
  step := by
    letI := P.beq
    intro ph row a b hab
    cases ph with
    | init =>
      refine step_rel (step := (u.red P ops m i).init) ?_ hab
      intro row a t ha h
      simp only [BRed.red, redOf] at h
      cases hi : u.initial with
      | none =>
        rw [hi] at h
        exact first_tag ops u.f ha h
      | some v =>
        rw [hi] at h
        exact reduce_tag ops u.f ha h
    | two => exact step_rel (step := (u.red P ops m i).two) (fun row a t ha h => reduce_tag ops u.f ha h) hab

/-- The reduces, and the same on what the variables hold. -/
theorem lifts_rel (hs : SameKinds m us) :
    All2 (fun r r' => RedRel (slotKinds P ops m us r.hash) r r') (redsFrom P ops m 0 us) (liftsFrom P ops m 0 us) := by
  have : ∀ (vs : List (BRed V E)) (i : Nat), (∀ n u, vs[n]? = some u → us[i + n]? = some u) →
      All2 (fun r r' => RedRel (slotKinds P ops m us r.hash) r r') (redsFrom P ops m i vs) (liftsFrom P ops m i vs) := by
    intro vs
    induction vs with
    | nil => exact fun _ _ => .nil
    | cons v vs ih =>
      intro i hv
      refine .cons ?_ (ih (i + 1) (fun n u hu => ?_))
      · have h0 : us[i]? = some v := hv 0 v rfl
        have := lift_rel (P := P) (ops := ops) (m := m) v i
        rw [← slotKinds_at (P := P) (ops := ops) hs h0] at this
        exact this
      · have := hv (n + 1) u (by simpa using hu)
        rwa [Nat.add_assoc, Nat.add_comm 1 n]
  exact this us 0 (fun n u hu => by rwa [Nat.zero_add])

end

/-- What is needed of reduce number `i`: its codes are read in this way, they mean what is said, and the name of its
variable does not occur in them. -/
structure BOk (P : Py V E) (condSem : String → V → Except E Bool) (args : List String) (env : String → Option (PVal V))
    (m : Bool) (i : Nat) (u : BRed V E) : Prop where
  codes : CodesOk u.f u.codes u.ia u.xa u.ya u.cond
  fn : FnOk P args env u.f u.xa u.ya u.x u.y
  initial : match u.ia, u.initial with
    | none, none => True
    | some a, some v => Gives P args env a (fun _ => .ok v)
    | _, _ => False
  cond : ∀ c d, u.codes.cond = some c → u.cond = some d → Tests P (Ctx args env) d.tree (condSem c)
  free : u.codes.Free (placeText m i)

section
variable {P : Py V E} {ops : Ops V E} {condSem : String → V → Except E Bool} {args : List String}
  {env : String → Option (PVal V)} {m : Bool} {us : List (BRed V E)}

theorem bred_ok (L : OpsOk P ops) (ha : ArgsOk args) {i j : Nat} {u : BRed V E} (h : BOk P condSem args env m i u) :
    ∃ q, RedOk P condSem args env m (u.f.kind P ops) j (if m then 1 <<< i else 0) (liftRed P ops u.f (u.red P ops m i))
      (renamed m i j (textOf m i u.text)) q := by
  obtain ⟨b, hb⟩ := genBlock_some u.f h.codes.length m i (if m then 1 <<< i else 0)
  have ht : textOf m i u.text = b := by simp only [textOf, BRed.text, hb, Option.getD_some]
  rw [ht]
  have hr := genBlock_renamed u.f h.codes.length m i j _ h.free hb
  obtain ⟨q, h1, h2, h3, h4, h5, h6, h7⟩ := fn_block h.codes m j _ hr
  refine ⟨q, h1, h2, h3, ?_, ?_, ?_, ?_⟩
  · rw [h5]
    have hi := h.initial
    cases hia : u.ia with
    | none =>
      rw [hia] at hi
      cases hin : u.initial with
      | some v => rw [hin] at hi; exact hi.elim
      | none =>
        have := fn_first (m := m) (j := j) L ha h.fn
        simp only [Fn.initWith, liftRed, BRed.red, redOf, hin]
        exact this
    | some a =>
      rw [hia] at hi
      cases hin : u.initial with
      | none => rw [hin] at hi; exact hi.elim
      | some v =>
        rw [hin] at hi
        have hf : u.f.takesInitial = true := by
          have := h.codes.initial
          rw [hia] at this
          cases hci : u.codes.initial with
          | none => rw [hci] at this; exact this.elim
          | some c => rw [hci] at this; exact this.1
        have := fn_initial (m := m) (j := j) L h.fn hf hi
        simp only [Fn.initWith, liftRed, BRed.red, redOf, hin]
        exact this
  · rw [h6]
    exact fn_two (m := m) (j := j) L h.fn
  · rw [h7]
    simp only [liftRed, BRed.red, redOf]
    cases u.codes.cond with
    | none => rfl
    | some c => simp
  · intro c d hc hd
    rw [h7] at hc
    rw [h4] at hd
    cases hcc : u.codes.cond with
    | none => rw [hcc] at hc; cases hc
    | some c' =>
      rw [hcc, Option.map_some, Option.some.injEq] at hc
      subst hc
      rw [String.ofList_toList]
      exact h.cond _ _ hcc hd

theorem linked_builtin (L : OpsOk P ops) (ha : ArgsOk args) (hs : SameKinds m us)
    (h : ∀ i u, us[i]? = some u → BOk P condSem args env m i u) :
    Linked P condSem args env m (kinds P ops m us) 0 (us.map BRed.text) (liftsFrom P ops m 0 us) := by
  have : ∀ (vs : List (BRed V E)) (i : Nat), (∀ n u, vs[n]? = some u → us[i + n]? = some u) →
      Linked P condSem args env m (kinds P ops m us) i (vs.map BRed.text) (liftsFrom P ops m i vs) := by
    intro vs
    induction vs with
    | nil => exact fun _ _ => .nil
    | cons v vs ih =>
      intro i hv
      have h0 : us[i]? = some v := hv 0 v rfl
      refine .cons rfl ?_ ?_ (ih (i + 1) (fun n u hu => ?_))
      · letI := P.beq
        exact (Fn.uncond_eq ops v.f).symm
      · intro j _
        have := bred_ok (j := j) L ha (h i v h0)
        have hk : kinds P ops m us (liftRed P ops v.f (v.red P ops m i)).hash = v.f.kind P ops := kinds_at hs h0
        rw [hk]
        exact this
      · have := hv (n + 1) u (by simpa using hu)
        rwa [Nat.add_assoc, Nat.add_comm 1 n]
  exact this us 0 (fun n u hu => by rwa [Nat.zero_add])

end

end Verif.Stmt
