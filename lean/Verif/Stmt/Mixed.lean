import Verif.Stmt.CustomProps

/-!
# Stmt: built-in reducers and functions of the user in one `group_by`

Source: `/repo/src/convtools/aggregations.py` lines 116-176, 285-483, 643-648, 788-945, 1069-1199.
-/

set_option autoImplicit false

namespace Verif.Stmt

open Verif.Text Verif.Agg Verif.Reducers

variable {V E : Type}

/-- A `c.reduce(...)` (788-914): of a built-in reducer or of a function. -/
inductive URed (V E : Type)
  | builtin (u : BRed V E)
  | custom (u : CRed V E)

/-- `gen_reduce_code_block` (876-914). -/
def URed.text : URed V E → TRed
  | .builtin u => u.text
  | .custom u => u.text

/-- `code_hash` (643-648) of reduce number `i`. -/
def URed.hash (m : Bool) (i : Nat) (u : URed V E) : String := String.ofList (codeHash (textOf m i u.text))

/-! ## Specification -/

/-- What a reduce has accumulated: what a built-in reducer keeps, or a value of the user. -/
inductive UVal (V : Type)
  | slot (s : Option (Slot V))
  | user (v : Option V)

/-- A reduce alone over rows: the built-in reducer as C36 to C39 describe it, or the left fold of the function. -/
def URed.spec (P : Py V E) (ops : Ops V E) (fns : String → V → V → Except E V) (condSem : String → V → Except E Bool)
    (rows : List V) : URed V E → Except E (UVal V)
  | .builtin u => (alone condSem (redOf (@Fn.reducer V E P.beq ops u.f) "" u.codes.cond u.initial u.x u.y) rows).map .slot
  | .custom u => (u.spec fns condSem rows).map .user

/-- The groups in order of the first appearance of their keys, with every reduce over the rows of the group. -/
def mixedGroups {K : Type} [BEq K] (P : Py V E) (ops : Ops V E) (fns : String → V → V → Except E V)
    (condSem : String → V → Except E Bool) (keyOf : V → Except E K) (us : List (URed V E)) (rows : List V) :
    Except E (List (K × List (UVal V))) :=
  andThen (keysOf keyOf rows) (fun ks =>
    mapAll (fun k => (mapAll (URed.spec P ops fns condSem (rowsWith keyOf k rows)) us).map (fun vs => (k, vs))) (firstSeen ks))

/-! ## The reduces on what their variables hold -/

/-- What the variable of a reduce holds. -/
def URed.kind (P : Py V E) (ops : Ops V E) : URed V E → Option (DVal V) → Prop
  | .builtin u => u.f.kind P ops
  | .custom _ => UserVal

/-- A step which is never done on something which the variable does not hold: it leaves it. -/
def guardStep (P : Py V E) (f : Fn) (step : V → Option (DVal V) → Except E (Option (DVal V))) (row : V) :
    Option (DVal V) → Except E (Option (DVal V))
  | none => step row none
  | some d => if (dcd P f.tag d).isSome then step row (some d) else .ok (some d)

/-- Reduce number `i` as the model of aggregations has it. -/
def URed.red (P : Py V E) (ops : Ops V E) (fns : String → Option V → V → Except E V) (m : Bool) (i : Nat) :
    URed V E → Red V (DVal V) E
  | .builtin u =>
    { hash := u.hash m i
      cond := u.codes.cond
      uncond := (u.red P ops m i).uncond
      init := guardStep P u.f (liftStep P ops u.f (u.red P ops m i).init)
      two := guardStep P u.f (liftStep P ops u.f (u.red P ops m i).two) }
  | .custom u => u.red fns m i

/-- The reduces number `i` and the following ones. -/
def mixedFrom (P : Py V E) (ops : Ops V E) (fns : String → Option V → V → Except E V) (m : Bool) :
    Nat → List (URed V E) → List (Red V (DVal V) E)
  | _, [] => []
  | i, u :: us => u.red P ops fns m i :: mixedFrom P ops fns m (i + 1) us

/-- What is needed of reduce number `i`. -/
def UBase (P : Py V E) (condSem : String → V → Except E Bool) (args : List String) (env : String → Option (PVal V)) (m : Bool)
    (fns : String → Option V → V → Except E V) (i : Nat) : URed V E → Prop
  | .builtin u => BOk P condSem args env m i u ∧ u.initial = none
  | .custom u => COk P condSem args env m fns i u

/-- What is needed of reduce number `i` of a `group_by`. -/
def UOk (P : Py V E) (condSem : String → V → Except E Bool) (args : List String) (env : String → Option (PVal V))
    (fns : String → Option V → V → Except E V) (i : Nat) : URed V E → Prop
  | .builtin u => BOk P condSem args env false i u ∧ u.initial = none ∧
      ∀ c, u.codes.cond = some c → ¬ (placeText false i).toList <:+: c.toList
  | .custom u => COk P condSem args env false fns i u

section
variable {P : Py V E} {ops : Ops V E} {fns : String → Option V → V → Except E V} {m : Bool}

theorem mixedFrom_get : ∀ (us : List (URed V E)) (i n : Nat),
    (mixedFrom P ops fns m i us)[n]? = us[n]?.map (URed.red P ops fns m (i + n))
  | [], _, _ => by simp [mixedFrom]
  | u :: us, i, 0 => rfl
  | u :: us, i, n + 1 => by
    rw [mixedFrom, List.getElem?_cons_succ, List.getElem?_cons_succ, mixedFrom_get us (i + 1) n,
      Nat.add_assoc, Nat.add_comm 1 n]

theorem mixedFrom_length : ∀ (us : List (URed V E)) (i : Nat), (mixedFrom P ops fns m i us).length = us.length
  | [], _ => rfl
  | _ :: us, i => by simp [mixedFrom, mixedFrom_length us (i + 1)]

theorem mixed_hash (u : URed V E) (i : Nat) : (u.red P ops fns m i).hash = u.hash m i := by
  cases u <;> rfl

theorem mixed_uncond (u : URed V E) (i : Nat) : (u.red P ops fns m i).uncond = u.text.uncond := by
  cases u with
  | builtin u =>
    letI := P.beq
    exact (Fn.uncond_eq ops u.f).symm
  | custom u => rfl

theorem guardStep_kind {f : Fn} {step : V → Option (DVal V) → Except E (Option (DVal V))} {v : Option (DVal V)} {row : V}
    (h : f.kind P ops v) : guardStep P f step row v = step row v := by
  cases v with
  | none => rfl
  | some d =>
    obtain ⟨s, h1, rfl⟩ := h d rfl
    simp [guardStep, dcd_enc P ops _ h1]

theorem acts_congr {C : St V → Prop} {k : Option (DVal V) → Prop} {j : Nat} {b : List Stmt}
    {code code' : V → Option (DVal V) → Except E (Option (DVal V))} (he : ∀ row v, k v → code' row v = code row v)
    (h : Acts P C k m j b code) : Acts P C k m j b code' := by
  intro st row p h1 h2 h3 h4
  rw [he _ _ h4.kind]
  exact h st row p h1 h2 h3 h4

theorem liftStep_none {f : Fn} {step : V → Option (Slot V) → Except E (Option (Slot V))} {row : V} :
    liftStep P ops f step row none = (step row none).map (Option.map (enc P ops f.factory)) := rfl

end

/-! ## Comparing reduces -/

theorem assign_last : (Fn.all.all fun f => match f.reduceH with
    | [.tok t :: _] => !decide (t = .assign) || decide (f = .last)
    | [_] => false
    | _ => true) = true := by decide +kernel

theorem lastH : Fn.last.firstH = [[.tok .assign, .x]] ∧ Fn.last.reduceH = [[.tok .assign, .x]] := by decide +kernel

theorem rd_length {ts : List Tok} {a : Ast} (h : Rd ts a) : 0 < ts.length := by
  obtain ⟨t, l, rfl, _⟩ := h.start
  simp

section
variable {P : Py V E} {ops : Ops V E} {condSem : String → V → Except E Bool} {args : List String}
  {env : String → Option (PVal V)} {fns : String → Option V → V → Except E V}

theorem lex_second {u : CRed V E} (h : u.Reads) {xt : List Tok} (hx : Code u.code.toList xt u.xa) :
    lexFrom .start u.secondH = some (.assign :: .name u.g :: .lpar :: .comma :: (xt ++ [.rpar])) := by
  have e : u.secondH = " = ".toList ++ (u.g.toList ++ ("(,".toList ++ (u.code.toList ++ (")".toList ++ [])))) := by
    simp [CRed.secondH]
  have hn : Lx u.g.toList [.name u.g] := Lx.of_reads (reads_name h.g true)
  have hp : Piece "(," [.lpar, .comma] := by decide +kernel
  have h0 : Lx ([] : List Char) [] := lx_nil
  have e2 : u.secondH = [] ++ (" = ".toList ++ (u.g.toList ++ ("(,".toList ++ (u.code.toList ++ (")".toList ++ []))))) := by
    rw [e]; rfl
  rw [e2, h0.before _ Pc.w_assign, hn.before _ hp, hx.lx.before _ Pc.w_rpar]
  simp [lexFrom, final]

/-- A built-in reduce and a function are never compared by the same text. -/
theorem mixed_differ {i j : Nat} {u : BRed V E} {v : CRed V E} (hu : BOk P condSem args env false i u) (hui : u.initial = none)
    (huc : ∀ c, u.codes.cond = some c → ¬ (placeText false i).toList <:+: c.toList) (hv : COk P condSem args env false fns j v) :
    u.hash false i ≠ v.hash false j := by
  intro h
  obtain ⟨xt, yt, ya, I, T, hx, hy, hya, hs, hI, hT, hne⟩ := hash_lines hu hui huc
  have he : codeHash (textOf false i u.text) = codeHash (textOf false j v.text) := by
    have := congrArg String.toList h
    simpa [BRed.hash, CRed.hash] using this
  rw [he, custom_hash hv.reads hv.free] at hs
  rcases hashRaw_inj (by simp) hne hs with ⟨_, rfl, rfl⟩ | hm | hm
  · obtain ⟨vt, hvx⟩ := hv.reads.x
    simp only [List.map_cons, List.map_nil, lex_second hv.reads hvx] at hT
    have hl : u.f = .last := by
      have h1 := List.all_eq_true.1 assign_last u.f u.f.mem_all
      cases hr : u.f.reduceH with
      | nil => rw [hr] at hT; cases hT
      | cons l ls =>
        rw [hr] at hT
        cases ls with
        | cons l' ls => simp at hT
        | nil =>
          rw [hr] at h1
          simp only [List.map_cons, List.map_nil, List.cons.injEq, Option.some.injEq, and_true] at hT
          match l, h1, hT with
          | .tok t :: l, h1, hT =>
            simp only [putH, List.flatMap_cons, HTok.put, List.singleton_append, List.cons.injEq] at hT
            rw [← hT.1] at h1
            simpa using h1
    rw [hl] at hI hT
    rw [lastH.1] at hI
    rw [lastH.2] at hT
    simp only [List.map_cons, List.map_nil, List.cons.injEq, Option.some.injEq, and_true, putH, List.flatMap_cons,
      List.flatMap_nil, HTok.put, List.append_nil, List.singleton_append, List.cons.injEq, true_and] at hI hT
    have hfirst : ∀ {s : List Char} {ts : List Tok}, Lx s ts → lexFrom .start (" = ".toList ++ s) = some (.assign :: ts) := by
      intro s ts hl
      have h0 : Lx ([] : List Char) [] := lx_nil
      have := h0.before _ Pc.w_assign (by decide +kernel) s
      rw [List.nil_append] at this
      rw [this, hl.whole]
      rfl
    have hin := hv.reads.initial
    rw [CRed.firstH] at hI
    cases hvi : v.initial with
    | none =>
      rw [hvi] at hI
      simp only [hfirst hvx.lx, Option.some.injEq, List.cons.injEq, true_and] at hI
      rw [hI] at hT
      have := congrArg List.length hT
      simp only [List.length_cons, List.length_append] at this
      omega
    | some t =>
      rw [hvi] at hI hin
      cases hia : v.ia with
      | none => rw [hia] at hin; exact hin.elim
      | some a =>
        rw [hia] at hin
        obtain ⟨it, hit⟩ := hin
        simp only [hfirst (call_code hv.reads.g hit hvx).lx, Option.some.injEq, List.cons.injEq, true_and] at hI
        rw [← hI] at hT
        have h2 := rd_length hit.rd
        have := congrArg List.length hT
        simp only [List.length_cons, List.length_append] at this
        omega
  · simp [CRed.firstH] at hm
  · exact absurd hm (mixed_none hx hy hI (firstH_good _) hne (firstH_mixed _))

theorem guard_congr {f g : Fn} (h1 : f.tag = g.tag) (h2 : f.factory = g.factory)
    {s t : V → Option (Slot V) → Except E (Option (Slot V))} (h : s = t) :
    guardStep P f (liftStep P ops f s) = guardStep P g (liftStep P ops g t) := by
  subst h
  funext row v
  cases v with
  | none => simp only [guardStep, liftStep, h1, h2]
  | some d => simp only [guardStep, liftStep, h1, h2]

/-- Reduces which are compared by the same text are the same reduction and keep the same kind of value. -/
theorem mixed_pair (L : OpsOk P ops) (ha : ArgsOk args) {i j : Nat} {u v : URed V E} (hu : UOk P condSem args env fns i u)
    (hv : UOk P condSem args env fns j v) (he : u.hash false i = v.hash false j) :
    (u.red P ops fns false i).cond = (v.red P ops fns false j).cond ∧
      (u.red P ops fns false i).init = (v.red P ops fns false j).init ∧
      (u.red P ops fns false i).two = (v.red P ops fns false j).two ∧ u.kind P ops = v.kind P ops := by
  cases u with
  | builtin u =>
    obtain ⟨u1, u2, u3⟩ := hu
    cases v with
    | builtin v =>
      obtain ⟨v1, v2, v3⟩ := hv
      obtain ⟨h1, h2, h3, h4, h5⟩ := same_hash (ops := ops) L ha u1 v1 u2 v2 u3 v3 he
      exact ⟨h1, guard_congr h4 h5 h2, guard_congr h4 h5 h3, kind_of h4 h5⟩
    | custom v => exact absurd he (mixed_differ u1 u2 u3 hv)
  | custom u =>
    cases v with
    | builtin v =>
      obtain ⟨v1, v2, v3⟩ := hv
      exact absurd he.symm (mixed_differ v1 v2 v3 hu)
    | custom v =>
      obtain ⟨h1, h2, h3⟩ := custom_pair ha hu hv he
      exact ⟨h1, h2, h3, rfl⟩

/-- What variables hold, by the hash of their reduce. -/
def mixedKinds (P : Py V E) (ops : Ops V E) (m : Bool) (us : List (URed V E)) (h : String) (v : Option (DVal V)) : Prop :=
  ∀ (i : Nat) (u : URed V E), us[i]? = some u → u.hash m i = h → u.kind P ops v

theorem kind_none (u : URed V E) : u.kind P ops none := by
  cases u with
  | builtin u => intro d hd; cases hd
  | custom u => exact ⟨none, rfl⟩

variable {us : List (URed V E)}

/-- Reduces with the same hash keep the same kind of value. -/
def MixedKinds (P : Py V E) (ops : Ops V E) (m : Bool) (us : List (URed V E)) : Prop :=
  ∀ (i j : Nat) (u v : URed V E), us[i]? = some u → us[j]? = some v → u.hash m i = v.hash m j → u.kind P ops = v.kind P ops

theorem mixedKinds_group (L : OpsOk P ops) (ha : ArgsOk args) (h : ∀ i u, us[i]? = some u → UOk P condSem args env fns i u) :
    MixedKinds P ops false us := fun i j u v hu hv he => (mixed_pair L ha (h i u hu) (h j v hv) he).2.2.2

theorem mixedKinds_at {m : Bool} (hs : MixedKinds P ops m us)
    {n : Nat} {u : URed V E} (hu : us[n]? = some u) : mixedKinds P ops m us (u.hash m n) = u.kind P ops := by
  funext v
  refine propext ⟨fun hv => hv n u hu rfl, fun hv i w hw he => ?_⟩
  rw [hs i n w u hw hu he]
  exact hv

theorem mixed_faithful (L : OpsOk P ops) (ha : ArgsOk args) (h : ∀ i u, us[i]? = some u → UOk P condSem args env fns i u) :
    Faithful (mixedFrom P ops fns false 0 us) := by
  intro a hma b hmb he
  obtain ⟨i, hi⟩ := List.getElem?_of_mem hma
  obtain ⟨j, hj⟩ := List.getElem?_of_mem hmb
  rw [mixedFrom_get, Option.map_eq_some_iff] at hi hj
  obtain ⟨u, hu, rfl⟩ := hi
  obtain ⟨v, hv, rfl⟩ := hj
  simp only [Nat.zero_add, mixed_hash] at he ⊢
  obtain ⟨h1, h2, h3, _⟩ := mixed_pair (ops := ops) L ha (h i u hu) (h j v hv) he
  exact ⟨h1, h2, h3⟩

theorem UOk.base {i : Nat} {u : URed V E} (h : UOk P condSem args env fns i u) : UBase P condSem args env false fns i u := by
  cases u with
  | builtin u => exact ⟨h.1, h.2.1⟩
  | custom u => exact h

theorem mixed_inits {m : Bool} {i : Nat} {u : URed V E} (h : UBase P condSem args env m fns i u) : Inits (u.red P ops fns m i) := by
  letI := P.beq
  cases u with
  | custom u => intro hun; cases hun
  | builtin u =>
    intro hun row v hv
    have hok := (builtins_ok ops (u.f.reducer ops) (fn_builtin ops u.f) (u.hash m i) u.codes.cond u.x u.y).1
    have hr : u.red P ops m i = redOf (u.f.reducer ops) (u.hash m i) u.codes.cond none u.x u.y := by
      simp only [BRed.red, h.2]
    rw [← hr] at hok
    simp only [URed.red, guardStep, liftStep_none] at hv
    cases hi : (u.red P ops m i).init row none with
    | error e => rw [hi] at hv; cases hv
    | ok t =>
      rw [hi] at hv
      cases hv
      have := hok hun row t hi
      cases t with
      | none => exact absurd rfl this
      | some s => simp

theorem mixed_keeps {m : Bool} {i : Nat} {u : URed V E} (h : UBase P condSem args env m fns i u) : Keeps (u.red P ops fns m i) := by
  letI := P.beq
  cases u with
  | custom u => exact custom_keeps
  | builtin u =>
    intro row x v hv
    have hok := (builtins_ok ops (u.f.reducer ops) (fn_builtin ops u.f) (u.hash m i) u.codes.cond u.x u.y).2
    have hr : u.red P ops m i = redOf (u.f.reducer ops) (u.hash m i) u.codes.cond none u.x u.y := by
      simp only [BRed.red, h.2]
    rw [← hr] at hok
    simp only [URed.red, guardStep] at hv
    cases hd : dcd P u.f.tag x with
    | none => rw [hd] at hv; cases hv; simp
    | some s =>
      rw [hd] at hv
      simp only [Option.isSome_some, if_true, liftStep, Option.bind_some, hd] at hv
      cases hi : (u.red P ops m i).two row (some s) with
      | error e => rw [hi] at hv; cases hv
      | ok t =>
        rw [hi] at hv
        cases hv
        have := hok row s t hi
        cases t with
        | none => exact absurd rfl this
        | some s => simp

theorem mixed_ok (L : OpsOk P ops) (ha : ArgsOk args) {m : Bool} {i j : Nat} {u : URed V E} (h : UBase P condSem args env m fns i u) :
    ∃ q, RedOk P condSem args env m (u.kind P ops) j (if m then 1 <<< i else 0) (u.red P ops fns m i) (renamed m i j (textOf m i u.text)) q := by
  cases u with
  | custom u => exact custom_ok h
  | builtin u =>
    obtain ⟨q, h1⟩ := bred_ok (j := j) L ha h.1
    refine ⟨q, h1.reads, h1.va, h1.flag, ?_, ?_, h1.text, h1.cond⟩
    · exact acts_congr (fun row v hv => guardStep_kind hv) h1.init
    · exact acts_congr (fun row v hv => guardStep_kind hv) h1.two

theorem linked_mixed (L : OpsOk P ops) (ha : ArgsOk args) {m : Bool} (hs : MixedKinds P ops m us)
    (h : ∀ i u, us[i]? = some u → UBase P condSem args env m fns i u) :
    Linked P condSem args env m (mixedKinds P ops m us) 0 (us.map URed.text) (mixedFrom P ops fns m 0 us) := by
  have : ∀ (vs : List (URed V E)) (i : Nat), (∀ n u, vs[n]? = some u → us[i + n]? = some u) →
      Linked P condSem args env m (mixedKinds P ops m us) i (vs.map URed.text) (mixedFrom P ops fns m i vs) := by
    intro vs
    induction vs with
    | nil => exact fun _ _ => .nil
    | cons v vs ih =>
      intro i hv
      have h0 : us[i]? = some v := hv 0 v rfl
      refine .cons (mixed_hash v i) (mixed_uncond v i) ?_ (ih (i + 1) (fun n u hu => ?_))
      · intro j _
        have := mixed_ok (j := j) L ha (h i v h0)
        rw [mixed_hash, mixedKinds_at hs h0]
        exact this
      · have := hv (n + 1) u (by simpa using hu)
        rwa [Nat.add_assoc, Nat.add_comm 1 n]
  exact this us 0 (fun n u hu => by rwa [Nat.zero_add])

end

/-! ## The model agrees with the specification -/

/-- What has been accumulated, from what the variable holds. -/
def URed.seen (P : Py V E) : URed V E → Option (DVal V) → UVal V
  | .builtin u, v => .slot (v.bind (dcd P u.f.tag))
  | .custom _, v => .user (undval v)

theorem foldRows_congr {R S : Type} {r r' : Red R S E} (h1 : r.init = r'.init) (h2 : r.two = r'.two) : ∀ (rows : List R) (a : Option S),
    foldRows r a rows = foldRows r' a rows
  | [], a => by cases a <;> rfl
  | row :: rows, none => by
    simp only [foldRows, h1]
    cases r'.init row none with
    | error e => rfl
    | ok v => exact foldRows_congr h1 h2 rows v
  | row :: rows, some x => by
    simp only [foldRows, h2]
    cases r'.two row (some x) with
    | error e => rfl
    | ok v => exact foldRows_congr h1 h2 rows v

section
variable {P : Py V E} {ops : Ops V E} {condSem : String → V → Except E Bool} {fns : String → Option V → V → Except E V}
  {m : Bool} {i : Nat}

theorem bind_dcd {f : Fn} {a : Option (Slot V)} (h : f.Holds a) :
    (a.map (enc P ops f.factory)).bind (dcd P f.tag) = a := by
  cases a with
  | none => rfl
  | some s => exact dcd_enc P ops _ (h s rfl)

theorem kind_enc {f : Fn} {a : Option (Slot V)} (h : f.Holds a) : f.kind P ops (a.map (enc P ops f.factory)) := by
  intro d hd
  cases a with
  | none => cases hd
  | some s => cases hd; exact ⟨s, h s rfl, rfl⟩

theorem foldRows_builtin (u : BRed V E) : ∀ (rows : List V) (a : Option (Slot V)), u.f.Holds a →
    (foldRows ((URed.builtin u).red P ops fns m i) (a.map (enc P ops u.f.factory)) rows).map (fun v => v.bind (dcd P u.f.tag)) =
      foldRows (u.red P ops m i) a rows
  | [], a, h => by
    cases a with
    | none => rfl
    | some s => simp only [foldRows, Option.map_some, Except.map, Option.bind_some, dcd_enc P ops _ (h s rfl)]
  | row :: rows, a, h => by
    letI := P.beq
    have ih := foldRows_builtin u rows
    have hrel := lift_rel (P := P) (ops := ops) (m := m) u i
    cases a with
    | none =>
      have hs := hrel.step .init row none _ ⟨h, rfl⟩
      have e1 : ((URed.builtin u).red P ops fns m i).init row none = (liftRed P ops u.f (u.red P ops m i)).init row none := rfl
      simp only [foldRows, Option.map_none, e1]
      change ResRel _ ((u.red P ops m i).init row none) ((liftRed P ops u.f (u.red P ops m i)).init row none) at hs
      generalize (liftRed P ops u.f (u.red P ops m i)).init row none = y at hs ⊢
      generalize (u.red P ops m i).init row none = x at hs ⊢
      cases hs with
      | error e => rfl
      | ok hab =>
        obtain ⟨h1, rfl⟩ := hab
        exact ih _ h1
    | some s =>
      have hs := hrel.step .two row (some s) _ ⟨h, rfl⟩
      have e1 : ((URed.builtin u).red P ops fns m i).two row (some (enc P ops u.f.factory s)) =
          (liftRed P ops u.f (u.red P ops m i)).two row (some (enc P ops u.f.factory s)) :=
        guardStep_kind (kind_enc h)
      simp only [foldRows, Option.map_some, e1]
      change ResRel _ ((u.red P ops m i).two row (some s)) ((liftRed P ops u.f (u.red P ops m i)).two row (some (enc P ops u.f.factory s))) at hs
      generalize (liftRed P ops u.f (u.red P ops m i)).two row (some (enc P ops u.f.factory s)) = y at hs ⊢
      generalize (u.red P ops m i).two row (some s) = x at hs ⊢
      cases hs with
      | error e => rfl
      | ok hab =>
        obtain ⟨h1, rfl⟩ := hab
        exact ih _ h1

theorem alone_mixed (u : URed V E) (rows : List V) :
    (alone condSem (u.red P ops fns m i) rows).map (u.seen P) = u.spec P ops (onVals fns) condSem rows := by
  cases u with
  | custom u =>
    have h := alone_custom fns condSem m i u rows
    have e : (URed.custom u).red P ops fns m i = u.red fns m i := rfl
    rw [e, h]
    simp only [URed.spec]
    cases u.spec (onVals fns) condSem rows with
    | error e => rfl
    | ok v => simp only [Except.map, URed.seen, undval_dval]
  | builtin u =>
    have hc : ((URed.builtin u).red P ops fns m i).cond = u.codes.cond := rfl
    simp only [URed.spec, alone, hc]
    have hc' : (redOf (@Fn.reducer V E P.beq ops u.f) "" u.codes.cond u.initial u.x u.y).cond = u.codes.cond := rfl
    rw [hc']
    cases passing condSem u.codes.cond rows with
    | error e => rfl
    | ok kept =>
      simp only
      have h := foldRows_builtin (P := P) (ops := ops) (fns := fns) (m := m) (i := i) u kept none u.f.holds_none
      rw [foldRows_congr (r := redOf (@Fn.reducer V E P.beq ops u.f) "" u.codes.cond u.initial u.x u.y) (r' := u.red P ops m i) rfl rfl,
        ← h]
      simp only [Option.map_none]
      generalize foldRows ((URed.builtin u).red P ops fns m i) none kept = y
      cases y <;> rfl

theorem allAlone_mixed (rows : List V) : ∀ (us : List (URed V E)) (i : Nat),
    (allAlone condSem rows (mixedFrom P ops fns m i us)).map (List.zipWith (fun u v => u.seen P v) us) =
      mapAll (URed.spec P ops (onVals fns) condSem rows) us
  | [], _ => rfl
  | u :: us, i => by
    have h := allAlone_mixed rows us (i + 1)
    have h1 := alone_mixed (P := P) (ops := ops) (condSem := condSem) (fns := fns) (m := m) (i := i) u rows
    simp only [mixedFrom, allAlone, mapAll, ← h, ← h1]
    cases alone condSem (u.red P ops fns m i) rows with
    | error e => cases allAlone condSem rows (mixedFrom P ops fns m (i + 1) us) <;> rfl
    | ok v => cases allAlone condSem rows (mixedFrom P ops fns m (i + 1) us) <;> rfl

theorem groupSpec_mixed {K : Type} [BEq K] (keyOf : V → Except E K) (us : List (URed V E)) (rows : List V) :
    (groupSpec condSem keyOf (mixedFrom P ops fns m 0 us) rows).map
        (List.map (fun g => (g.1, List.zipWith (fun u v => u.seen P v) us g.2))) =
      mixedGroups P ops (onVals fns) condSem keyOf us rows := by
  simp only [groupSpec, mixedGroups, andThen]
  cases keysOf keyOf rows with
  | error e => rfl
  | ok ks =>
    simp only
    induction firstSeen ks with
    | nil => rfl
    | cons k ks ih =>
      have h := allAlone_mixed (P := P) (ops := ops) (condSem := condSem) (fns := fns) (m := m) (rowsWith keyOf k rows) us 0
      simp only [eachGroup, mapAll, ← ih, ← h]
      cases allAlone condSem (rowsWith keyOf k rows) (mixedFrom P ops fns m 0 us) with
      | error e => rfl
      | ok vs => cases eachGroup condSem keyOf (mixedFrom P ops fns m 0 us) rows ks <;> rfl

end

/-! ## C68 -/

section
variable {P : Py V E} {ops : Ops V E} {condSem : String → V → Except E Bool} {f : FnText} {r : FnSrc} {vals : List (PVal V)}
  {gs : List String} {fns : String → Option V → V → Except E V} {us : List (URed V E)} {sort : Val V → Except E (Val V)}

/-- Variable number `j` holds what reduce `u` has accumulated. -/
def HoldsOne (P : Py V E) (ops : Ops V E) (m : Bool) (st : St V) (j : Nat) : URed V E → UVal V → Prop
  | .builtin u, .slot s => u.f.Holds s ∧ ∃ p, ev P (place m j) st = .ok (p, st) ∧ Valid st.heap p ∧
      dec st.heap p = s.map (enc P ops u.f.factory)
  | .custom _, .user v => ev P (place m j) st = .ok (pval v, st)
  | _, _ => False

/-- The variables of the reduces hold these values. -/
def HoldsMixed (P : Py V E) (ops : Ops V E) (m : Bool) (st : St V) (us : List (URed V E)) (vs : List (UVal V)) : Prop :=
  vs.length = us.length ∧ ∀ (n : Nat) u v, us[n]? = some u → vs[n]? = some v →
    ∃ j, (textCompile m (us.map URed.text)).slotOf[n]? = some j ∧ HoldsOne P ops m st j u v

theorem holds_mixed {m : Bool} {args : List String} {env : String → Option (PVal V)}
    (hl : Linked P condSem args env m (mixedKinds P ops m us) 0 (us.map URed.text) (mixedFrom P ops fns m 0 us))
    (hs : MixedKinds P ops m us) {st : St V} {get : Nat → PVal V → Prop} (hget : ∀ j p, get j p → ev P (place m j) st = .ok (p, st))
    {vs : List (Option (DVal V))}
    (hh : Holds st get (slotsOf (mixedKinds P ops m us) m (us.map URed.text) (mixedFrom P ops fns m 0 us)) vs) :
    HoldsMixed P ops m st us (List.zipWith (fun u v => u.seen P v) us vs) := by
  obtain ⟨g1, g2⟩ := holds_get hh
  have hlen : (textCompile m (us.map URed.text)).slotOf.length = us.length := by
    rw [(compile_rel hl).1, (compile_inv m _).len, mixedFrom_length]
  have hv : vs.length = us.length := by
    rw [← g1, slotsOf, List.length_zip, hlen, List.length_map, mixedFrom_length, Nat.min_self]
  refine ⟨by simp [hv], fun n u w hu hw => ?_⟩
  have hn := (List.getElem?_eq_some_iff.1 hu).1
  have hvn : vs[n]? = some vs[n] := List.getElem?_eq_getElem (by omega)
  have hj : (textCompile m (us.map URed.text)).slotOf[n]? = some _ := List.getElem?_eq_getElem (by omega)
  refine ⟨_, hj, ?_⟩
  obtain ⟨p, h3, h4, h5⟩ := g2 (n := n) (k := u.kind P ops) (v := vs[n]) (by
    rw [slotsOf, List.getElem?_zip_eq_some]
    refine ⟨hj, ?_⟩
    rw [List.getElem?_map, mixedFrom_get, hu, Option.map_some, Option.map_some, Nat.zero_add, mixed_hash,
      mixedKinds_at hs hu]) hvn
  have h6 := h5.kind
  rw [h4] at h6
  simp only [List.getElem?_zipWith, hu, hvn, Option.some.injEq] at hw
  subst hw
  generalize vs[n] = d at h4 h6 ⊢
  cases u with
  | custom u =>
    obtain ⟨s, rfl⟩ := h6
    obtain rfl := pval_of h4
    simp only [URed.seen, HoldsOne, undval_dval]
    exact hget _ _ h3
  | builtin u =>
    simp only [URed.seen, HoldsOne]
    cases d with
    | none => exact ⟨u.f.holds_none, p, hget _ _ h3, h5.valid, h4⟩
    | some d =>
      obtain ⟨s, h7, rfl⟩ := h6 d rfl
      simp only [Option.bind_some, dcd_enc P ops _ h7]
      exact ⟨by intro x hx; cases hx; exact h7, p, hget _ _ h3, h5.valid, h4⟩

/-- **C68**.  For every list of reduces in which built-in reducers and functions of the user are mixed (any number of them,
equal ones or not, with filters or without): the class and the function generated for `group_by` with these reduces are
read as Python code, the function uses nothing outside the model, and it returns `out` exactly if the groups, in order of
the first appearance of their keys, with each reduce computed alone over the rows of the group (built-in reducers as C36 to
C39 describe them, functions as left folds), give values such that their list, sorted, is `out`.  Nothing is assumed about
`code_hash`, by which the reduces which share a variable are found.

Missing: `initial` of built-in reducers, additional arguments of functions, inline expressions in place of functions. -/
theorem C68_group_by_partial (L : OpsOk P ops) {cls signature : String} {sigT : List Tok} {sigA : Ast} (h : FnReads f r)
    (hcn : isName cls = true) (hsl : Lx signature.toList sigT) (hsr : Rd sigT sigA)
    (hg : ∀ g ∈ gs, g ∉ "data_" :: f.args) (ha : ArgsOkG (f.args ++ gs)) (haA : ArgsOk (f.args ++ gs))
    (hcall : CallOkG P f r cls (textCompile false (us.map URed.text)).items.length vals)
    {keyOf : V → Except E (PVal V)} (hk : KeyOk P (f.args ++ gs) (envOf f.args vals) sigA keyOf)
    (hb : ∀ i u, us[i]? = some u → UOk P condSem (f.args ++ gs) (envOf f.args vals) fns i u) (hne : us ≠ [])
    {e : Ast} (hra : r.result = .pairs e "signature_" "agg_data_" (.call (.attr (.name "signature_to_agg_data_") "items") [] []))
    {res : PVal V → List (UVal V) → Except E (Val V)}
    (hres : ∀ st k vs, Ctx (f.args ++ gs) (envOf f.args vals) st → st.loc "signature_" = some k →
      HoldsMixed P ops false st us vs → Yields P e st (res k vs))
    (hsort : SortOk P (f.args ++ gs) (envOf f.args vals) r.sort sort)
    (hq : @EquivBEq (PVal V) ⟨P.keyEq⟩) :
    Source (containerCode (us.map URed.text))
      [.class_ "AggData" (classBody (textCompile false (us.map URed.text)).items.length)] ∧
    ∃ b, Source (groupCode f cls signature (us.map URed.text)) b ∧ ∀ rows, callDef P f.name (.data rows :: vals) b ≠ .error none ∧
      ∀ out, callDef P f.name (.data rows :: vals) b = .ok out ↔
        ∃ groups ws, @mixedGroups _ _ _ ⟨P.keyEq⟩ P ops (onVals fns) condSem keyOf us rows = .ok groups ∧
          mapAll (fun g => res g.1 g.2) groups = .ok ws ∧ sort (P.newList ws) = .ok out := by
  letI : BEq (PVal V) := ⟨P.keyEq⟩
  have hs := mixedKinds_group (ops := ops) L haA hb
  have hl := linked_mixed (ops := ops) L haA hs (fun i u hu => (hb i u hu).base)
  obtain ⟨h0, b, h1, h2⟩ := C56_group_by_partial (kd := mixedKinds P ops false us) (fun _ _ u _ _ => kind_none u) h hcn hsl hsr hg ha hcall
    hk hl (by simpa using hne) hra (res := fun k vs => res k (List.zipWith (fun u v => u.seen P v) us vs))
    (fun st k vs hc hsig hh => hres st k _ hc hsig (holds_mixed hl hs (fun _ _ h => h) hh))
    hsort hq (mixed_faithful L haA hb)
    (fun a hm => by
      obtain ⟨i, hi⟩ := List.getElem?_of_mem hm
      rw [mixedFrom_get, Option.map_eq_some_iff, Nat.zero_add] at hi
      obtain ⟨u, hu, rfl⟩ := hi
      exact mixed_inits (hb i u hu).base)
    (fun a hm _ => by
      obtain ⟨i, hi⟩ := List.getElem?_of_mem hm
      rw [mixedFrom_get, Option.map_eq_some_iff, Nat.zero_add] at hi
      obtain ⟨u, hu, rfl⟩ := hi
      exact mixed_keeps (hb i u hu).base)
  refine ⟨h0, b, h1, fun rows => ⟨(h2 rows).1, fun out => ?_⟩⟩
  rw [(h2 rows).2 out, ← groupSpec_mixed (m := false)]
  have hm : ∀ groups : List (PVal V × List (Option (DVal V))),
      mapAll (fun g => res g.1 (List.zipWith (fun u v => u.seen P v) us g.2)) groups =
      mapAll (fun g => res g.1 g.2) (groups.map fun g => (g.1, List.zipWith (fun u v => u.seen P v) us g.2)) := by
    intro groups
    induction groups with
    | nil => rfl
    | cons g groups ih => simp only [List.map_cons, mapAll, ih]
  cases groupSpec condSem keyOf (mixedFrom P ops fns false 0 us) rows with
  | error x => simp [Except.map]
  | ok groups =>
    simp only [Except.map, Except.ok.injEq, exists_and_left, exists_eq_left', hm]

/-- There is something accumulated. -/
def UVal.Has : UVal V → Prop
  | .slot s => s ≠ none
  | .user v => v ≠ none

theorem seen_has {u : URed V E} {d : Option (DVal V)} (h : (u.seen P d).Has) : d ≠ none := by
  rintro rfl
  cases u <;> exact h rfl

/-- **C68** (`c.aggregate`).  For every list of reduces in which built-in reducers and functions of the user are mixed, no two
of them with the same `code_hash`: the text generated for `c.aggregate` is read as Python code, the function in it uses
nothing outside the model, and for all rows such that every reduce has a value after the first of them, it returns `out`
exactly if the reduces, each computed alone over the rows, give values such that the expression of the result, sorted, is
`out`.

Missing: in `c.aggregate` reduces with the same hash may be different reductions (`C35_refuted_aggregate`), and with reduces
which get their first value later, others may lose a row (`C34_refuted`); `initial` of built-in reducers, additional
arguments of functions, inline expressions. -/
theorem C68_aggregate_partial (L : OpsOk P ops) (hg : ∀ g ∈ gs, g ∉ "data_" :: f.args) (h : FnReads f r)
    (ha : ArgsOk (f.args ++ gs)) (hcall : CallOk P f r vals)
    (hb : ∀ i u, us[i]? = some u → UBase P condSem (f.args ++ gs) (envOf f.args vals) true fns i u) (hne : us ≠ [])
    (hd : ∀ (i j : Nat) (u v : URed V E), us[i]? = some u → us[j]? = some v → u.hash true i = v.hash true j → i = j)
    {ra : Ast} (hra : r.result = .expr ra) {res : List (UVal V) → Except E (Val V)}
    (hres : ∀ st vs, Ctx (f.args ++ gs) (envOf f.args vals) st → HoldsMixed P ops true st us vs → Yields P ra st (res vs))
    (hsort : SortOk P (f.args ++ gs) (envOf f.args vals) r.sort sort) :
    ∃ b, Source (aggCode f (us.map URed.text)) b ∧ (∀ rows, callDef P f.name (.data rows :: vals) b ≠ .error none) ∧
      ∀ row rows, (∀ u ∈ us, ∃ v, u.spec P ops (onVals fns) condSem [row] = .ok v ∧ v.Has) → ∀ out,
        callDef P f.name (.data (row :: rows) :: vals) b = .ok out ↔
          ∃ vs w, mapAll (URed.spec P ops (onVals fns) condSem (row :: rows)) us = .ok vs ∧ res vs = .ok w ∧ sort w = .ok out := by
  have hs : MixedKinds P ops true us := by
    intro i j u v hu hv he
    obtain rfl := hd i j u v hu hv he
    rw [hu] at hv
    obtain rfl := Option.some.inj hv
    rfl
  have hl := linked_mixed (ops := ops) L ha hs hb
  obtain ⟨b, h1, h2⟩ := aggregate_runs (kd := mixedKinds P ops true us) (fun _ _ u _ _ => kind_none u) hg h ha hcall hl
    (by simpa using hne) hra (res := fun vs => res (List.zipWith (fun u v => u.seen P v) us vs))
    (fun st vs hc hh => hres st _ hc (holds_mixed hl hs (fun j p hp => by
      have := varAgg_const j
      simp only [place, ev, St.look, this, Bool.false_eq_true, if_false, hp]) hh)) hsort
  have hmem : ∀ a ∈ mixedFrom P ops fns true 0 us, ∃ (i : Nat) (u : URed V E), us[i]? = some u ∧ a = u.red P ops fns true i := by
    intro a hm
    obtain ⟨i, hi⟩ := List.getElem?_of_mem hm
    rw [mixedFrom_get, Option.map_eq_some_iff, Nat.zero_add] at hi
    obtain ⟨u, hu, rfl⟩ := hi
    exact ⟨i, u, hu, rfl⟩
  refine ⟨b, h1, fun rows => by rw [h2]; exact lift_modelled, fun row rows hrow out => ?_⟩
  rw [h2, lift_ok, andThen_ok]
  simp only [andThen_ok]
  have hC : ∀ vs, aggregate condSem (mixedFrom P ops fns true 0 us) (row :: rows) = .ok vs ↔
      allAlone condSem (row :: rows) (mixedFrom P ops fns true 0 us) = .ok vs := fun vs => by
    refine C34_first_row_partial condSem _ ?_ ?_ ?_ row rows ?_ vs
    · intro a hma a' hma' he
      obtain ⟨i, u, hu, rfl⟩ := hmem a hma
      obtain ⟨j, v, hv, rfl⟩ := hmem a' hma'
      rw [mixed_hash, mixed_hash] at he
      obtain rfl := hd i j u v hu hv he
      rw [hu] at hv
      obtain rfl := Option.some.inj hv
      exact ⟨rfl, rfl, rfl⟩
    · intro a hma
      obtain ⟨i, u, hu, rfl⟩ := hmem a hma
      exact mixed_inits (hb i u hu)
    · intro a hma
      obtain ⟨i, u, hu, rfl⟩ := hmem a hma
      exact mixed_keeps (hb i u hu)
    · intro a hma
      obtain ⟨i, u, hu, rfl⟩ := hmem a hma
      obtain ⟨v, e1, e2⟩ := hrow u (List.mem_of_getElem? hu)
      rw [← alone_mixed (m := true) (i := i)] at e1
      cases hal : alone condSem (u.red P ops fns true i) [row] with
      | error e => rw [hal] at e1; cases e1
      | ok d =>
        rw [hal] at e1
        cases e1
        cases d with
        | none => exact absurd rfl (seen_has e2)
        | some x => exact ⟨x, rfl⟩
  have hA := allAlone_mixed (P := P) (ops := ops) (condSem := condSem) (fns := fns) (m := true) (row :: rows) us 0
  simp only [hC, ← hA]
  cases allAlone condSem (row :: rows) (mixedFrom P ops fns true 0 us) with
  | error e => simp [Except.map]
  | ok vs => simp [Except.map]

end

end Verif.Stmt
