import Verif.Stmt.TemplateOne
import Verif.Stmt.TemplateEqual

/-!
# Stmt: C56, C57, C58

The source text generated for `c.aggregate` and `group_by` as a Python program: how it is read (`Source`) and what a call
of the function in it does (`callDef`).

Source: `/repo/src/convtools/aggregations.py` lines 48-1277.
-/

set_option autoImplicit false

namespace Verif.Stmt

open Verif.Text Verif.Agg Verif.Reducers

variable {V E : Type}

theorem lift_ok {A : Type} {x : Except E A} {a : A} : (lift x = (.ok a : Res E A)) ↔ x = .ok a := by
  cases x <;> simp [lift]

theorem lift_modelled {A : Type} {x : Except E A} : (lift x : Res E A) ≠ .error none := by
  cases x <;> simp [lift]

theorem andThen_ok {A B : Type} {x : Except E A} {f : A → Except E B} {b : B} :
    andThen x f = .ok b ↔ ∃ a, x = .ok a ∧ f a = .ok b := by
  cases x <;> simp [andThen]

/-! ## C56 -/

/-- **C56** (`c.aggregate`).  The text is read as Python code, the function in it uses nothing outside the model, and it
returns `out` exactly if each reduce, computed alone over the rows, gives a value such that the expression of the result,
sorted, is `out`.

Missing: reduces with the same hash must be the same reduction (false otherwise, `C35_refuted_aggregate`), and the block
of the last reduce must not be initialised before the other ones (false otherwise, `C34_refuted`); the codes of the
conversions inside are read and evaluated as `Linked`, `Yields` and `SortOk` say. -/
theorem C56_aggregate_partial {kd : String → Option (DVal V) → Prop} (hkd : ∀ h, kd h none) {P : Py V E}
    {condSem : String → V → Except E Bool} {f : FnText} {r : FnSrc} {vals : List (PVal V)} {gs : List String}
    (hg : ∀ g ∈ gs, g ∉ "data_" :: f.args) (h : FnReads f r) (ha : ArgsOk (f.args ++ gs)) (hcall : CallOk P f r vals)
    {ts : List TRed} {rs : List (Red V (DVal V) E)}
    (hl : Linked P condSem (f.args ++ gs) (envOf f.args vals) true kd 0 ts rs) (hne : ts ≠ [])
    {ra : Ast} (hra : r.result = .expr ra) {res : List (Option (DVal V)) → Except E (Val V)}
    (hres : ∀ st vs, Ctx (f.args ++ gs) (envOf f.args vals) st →
      Holds st (fun j p => st.loc (varAgg j) = some p) (slotsOf kd true ts rs) vs → Yields P ra st (res vs))
    {sort : Val V → Except E (Val V)} (hs : SortOk P (f.args ++ gs) (envOf f.args vals) r.sort sort)
    (hf : Faithful rs) (hi : ∀ r ∈ rs, Inits r) (hk : ∀ r ∈ rs, Keeps r) :
    ∃ b, Source (aggCode f ts) b ∧ ∀ rows, callDef P f.name (.data rows :: vals) b ≠ .error none ∧
      (LastLatest condSem (reduceBlocks (compile true rs).items) rows → ∀ out,
        callDef P f.name (.data rows :: vals) b = .ok out ↔
          ∃ vs w, allAlone condSem rows rs = .ok vs ∧ res vs = .ok w ∧ sort w = .ok out) := by
  obtain ⟨b, h1, h2⟩ := aggregate_runs hkd hg h ha hcall hl hne hra hres hs
  refine ⟨b, h1, fun rows => ⟨?_, fun hll out => ?_⟩⟩
  · rw [h2]
    exact lift_modelled
  · rw [h2, lift_ok, andThen_ok]
    simp only [andThen_ok, C34_aggregate_partial condSem rs hf hi hk rows hll]
    constructor
    · rintro ⟨w, ⟨vs, e1, e2⟩, e3⟩
      exact ⟨vs, w, e1, e2, e3⟩
    · rintro ⟨vs, w, e1, e2, e3⟩
      exact ⟨w, ⟨vs, e1, e2⟩, e3⟩

/-- **C56** (`group_by`).  The class and the function are read as Python code, the function uses nothing outside the
model, and it returns `out` exactly if the groups, in order of the first appearance of their keys, with each reduce
computed alone over the rows of the group, give values such that their list, sorted, is `out`.

Missing: reduces with the same hash must be the same reduction (false otherwise, `C35_refuted_group_by`); the codes of the
conversions inside are read and evaluated as `Linked`, `KeyOk`, `Yields` and `SortOk` say. -/
theorem C56_group_by_partial {kd : String → Option (DVal V) → Prop} (hkd : ∀ h, kd h none) {P : Py V E}
    {condSem : String → V → Except E Bool} {f : FnText} {r : FnSrc} {cls signature : String} {sigT : List Tok} {sigA : Ast}
    {vals : List (PVal V)} (h : FnReads f r)
    (hcn : isName cls = true) (hsl : Lx signature.toList sigT) (hsr : Rd sigT sigA) {gs : List String}
    (hg : ∀ g ∈ gs, g ∉ "data_" :: f.args) (ha : ArgsOkG (f.args ++ gs)) {ts : List TRed}
    (hcall : CallOkG P f r cls (textCompile false ts).items.length vals)
    {keyOf : V → Except E (PVal V)} (hk : KeyOk P (f.args ++ gs) (envOf f.args vals) sigA keyOf)
    {rs : List (Red V (DVal V) E)} (hl : Linked P condSem (f.args ++ gs) (envOf f.args vals) false kd 0 ts rs) (hne : ts ≠ [])
    {e : Ast} (hra : r.result = .pairs e "signature_" "agg_data_" (.call (.attr (.name "signature_to_agg_data_") "items") [] []))
    {res : PVal V → List (Option (DVal V)) → Except E (Val V)}
    (hres : ∀ st k vs, Ctx (f.args ++ gs) (envOf f.args vals) st → st.loc "signature_" = some k →
      Holds st (fun j p => ev P (place false j) st = .ok (p, st)) (slotsOf kd false ts rs) vs → Yields P e st (res k vs))
    {sort : Val V → Except E (Val V)} (hs : SortOk P (f.args ++ gs) (envOf f.args vals) r.sort sort)
    (hq : @EquivBEq (PVal V) ⟨P.keyEq⟩) (hf : Faithful rs) (hi : ∀ r ∈ rs, Inits r)
    (hkeep : ∀ r ∈ rs, r.uncond = true → Keeps r) :
    Source (containerCode ts) [.class_ "AggData" (classBody (textCompile false ts).items.length)] ∧
    ∃ b, Source (groupCode f cls signature ts) b ∧ ∀ rows, callDef P f.name (.data rows :: vals) b ≠ .error none ∧ ∀ out,
      callDef P f.name (.data rows :: vals) b = .ok out ↔
        ∃ groups ws, @groupSpec _ _ _ _ ⟨P.keyEq⟩ condSem keyOf rs rows = .ok groups ∧
          mapAll (fun g => res g.1 g.2) groups = .ok ws ∧ sort (P.newList ws) = .ok out := by
  letI : BEq (PVal V) := ⟨P.keyEq⟩
  obtain ⟨h0, b, h1, h2⟩ := group_runs hkd h hcn hsl hsr hg ha hcall hk hl hne hra hres hs
  refine ⟨h0, b, h1, fun rows => ⟨?_, fun out => ?_⟩⟩
  · rw [h2]
    exact lift_modelled
  · rw [h2, lift_ok, andThen_ok]
    simp only [andThen_ok, C33_group_by_partial condSem keyOf rs hf hi hkeep rows]
    constructor
    · rintro ⟨w, ⟨d, e1, e2⟩, e3⟩
      cases hm : mapAll (fun g => res g.1 g.2) d with
      | error x => rw [hm] at e2; cases e2
      | ok ws =>
        rw [hm] at e2
        cases e2
        exact ⟨d, ws, e1, hm, e3⟩
    · rintro ⟨d, ws, e1, e2, e3⟩
      exact ⟨_, ⟨d, e1, by rw [e2]; rfl⟩, e3⟩

/-! ## C57 -/

theorem fn_builtin [BEq V] (ops : Ops V E) (f : Fn) : f.reducer ops ∈ builtins ops := by
  cases f <;> simp [Fn.reducer, builtins]

theorem outOf_ok {rd : Reducer V E} {dflt : Option (Slot V)} {fin : Slot V → DVal V} {x : Option (Slot V)} {w : Val V} :
    outOf rd dflt fin x = .ok w ↔ ∃ s, resultOf rd dflt x = .ok s ∧ s.map fin = w := by
  unfold outOf
  cases resultOf rd dflt x <;> simp [Except.map]

section
variable {P : Py V E} {ops : Ops V E} {condSem : String → V → Except E Bool} {f : FnText} {r : FnSrc} {vals : List (PVal V)}
  {gs : List String} {u : BRed V E} {o : OutCode} {dt : Option (List Tok)} {da : Option Ast} {dflt : Option (Slot V)}
  {fin : Slot V → DVal V} {pt : List Tok} {pa : Ast} {sort : Val V → Except E (Val V)}

/-- **C57** (`c.aggregate`).  For every built-in reducer, with any filter, default and codes of its arguments: the text
generated for `c.aggregate` of this reduce is read as Python code, the function in it uses nothing outside the model, and
it returns exactly the result of the reducer over all rows (`outcome`, which C36 to C39 describe for each reducer). -/
theorem C57_aggregate (L : OpsOk P ops) (hg : ∀ g ∈ gs, g ∉ "data_" :: f.args) (h : FnHead f r)
    (ha : ArgsOk (f.args ++ gs)) (hcall : CallOk P f r vals)
    (hb : BOk P condSem (f.args ++ gs) (envOf f.args vals) true 0 u) (hin : u.initial = none)
    (ho : OutOk P ops (f.args ++ gs) (envOf f.args vals) u o dt da dflt fin (varAgg 0) (place true 0) pt pa)
    (hsort : SortOk P (f.args ++ gs) (envOf f.args vals) r.sort sort) :
    ∃ b, Source (aggCode { f with result := o.text (varAgg 0) } [u.text]) b ∧ ∀ rows,
      callDef P f.name (.data rows :: vals) b ≠ .error none ∧ ∀ out,
      callDef P f.name (.data rows :: vals) b = .ok out ↔
        ∃ s, outcome condSem (@Fn.reducer V E P.beq ops u.f) dflt (u.hash true 0) u.codes.cond none u.x u.y rows = .ok s ∧
          sort (s.map fin) = .ok out := by
  letI := P.beq
  obtain ⟨b, h1, h2⟩ := aggregate_one L hg h ha hcall hb ho hsort
  refine ⟨b, h1, fun rows => ⟨?_, fun out => ?_⟩⟩
  · rw [h2]
    exact lift_modelled
  · have hred : u.red P ops true 0 = redOf (u.f.reducer ops) (u.hash true 0) u.codes.cond none u.x u.y := by
      simp only [BRed.red, hin]
    have hok := builtins_ok ops (u.f.reducer ops) (fn_builtin ops u.f) (u.hash true 0) u.codes.cond u.x u.y
    have hC : ∀ vs, aggregate condSem [u.red P ops true 0] rows = .ok vs ↔
        allAlone condSem rows [u.red P ops true 0] = .ok vs := fun vs => by
      refine C34_aggregate_partial condSem _ ?_ ?_ ?_ rows (lastLatest_one condSem _ rows) vs
      · intro a ha a' ha' _
        rw [List.mem_singleton.1 ha, List.mem_singleton.1 ha']
        exact ⟨rfl, rfl, rfl⟩
      · intro a ha
        rw [List.mem_singleton.1 ha, hred]
        exact hok.1
      · intro a ha
        rw [List.mem_singleton.1 ha, hred]
        exact hok.2
    rw [h2, lift_ok, andThen_ok]
    simp only [andThen_ok, hC, allAlone, outcome, ← hred]
    cases alone condSem (u.red P ops true 0) rows with
    | error e => simp
    | ok x =>
      simp only [Except.ok.injEq, exists_eq_left', List.headD_cons]
      constructor
      · rintro ⟨w, e1, e2⟩
        obtain ⟨s, e3, rfl⟩ := outOf_ok.1 e1
        exact ⟨s, e3, e2⟩
      · rintro ⟨s, e1, e2⟩
        exact ⟨_, outOf_ok.2 ⟨s, e1, rfl⟩, e2⟩

theorem mapAll_cons {A B : Type} (f : A → Except E B) (a : A) (l : List A) :
    mapAll f (a :: l) =
      match f a with
      | .error e => .error e
      | .ok b =>
        match mapAll f l with
        | .error e => .error e
        | .ok bs => .ok (b :: bs) := by
  simp only [mapAll]
  cases f a <;> cases mapAll f l <;> rfl

theorem eachGroup_one {K : Type} [BEq K] {S : Type} (condSem : String → V → Except E Bool) (keyOf : V → Except E K)
    (red : Red V S E) (rows : List V) (res : Option S → Except E (Val V)) : ∀ (ks : List K) (ws : List (Val V)),
    (∃ d, eachGroup condSem keyOf [red] rows ks = .ok d ∧ mapAll (fun g => res (g.2.headD none)) d = .ok ws) ↔
      mapAll (fun k => andThen (alone condSem red (rowsWith keyOf k rows)) res) ks = .ok ws
  | [], ws => by simp [eachGroup, mapAll]
  | k :: ks, ws => by
    have ih := eachGroup_one condSem keyOf red rows res ks
    rw [mapAll_cons]
    generalize mapAll (fun k => andThen (alone condSem red (rowsWith keyOf k rows)) res) ks = y at ih ⊢
    simp only [eachGroup, allAlone]
    cases ha : alone condSem red (rowsWith keyOf k rows) with
    | error e => simp [andThen]
    | ok x =>
      simp only [andThen]
      cases he : eachGroup condSem keyOf [red] rows ks with
      | error e =>
        rw [he] at ih
        cases y with
        | ok ws' =>
          obtain ⟨d, h1, _⟩ := (ih ws').2 rfl
          cases h1
        | error e' => cases res x <;> simp
      | ok d =>
        rw [he] at ih
        simp only [Except.ok.injEq, exists_eq_left', mapAll, List.headD_cons] at ih ⊢
        generalize mapAll (fun g => res (g.2.headD none)) d = z at ih ⊢
        cases res x with
        | error e => simp
        | ok w =>
          cases y with
          | ok ws' =>
            have := (ih ws').2 rfl
            subst this
            rfl
          | error e =>
            cases z with
            | error e' => simp
            | ok ws' => have := (ih ws').1 rfl; cases this

theorem mapAll_map {A B C : Type} (f : A → Except E B) (g : B → C) : ∀ (l : List A) (ws : List C),
    mapAll (fun a => (f a).map g) l = .ok ws ↔ ∃ bs, mapAll f l = .ok bs ∧ bs.map g = ws
  | [], ws => by simp [mapAll, eq_comm]
  | a :: l, ws => by
    have ih := mapAll_map f g l
    simp only [mapAll]
    cases f a with
    | error e => simp [Except.map]
    | ok b =>
      simp only [Except.map]
      cases hl : mapAll f l with
      | error e =>
        rw [hl] at ih
        simp only [Except.map] at ih
        generalize mapAll (fun a => match f a with
          | .error e => (.error e : Except E C)
          | .ok v => .ok (g v)) l = y at ih ⊢
        cases y with
        | error e => simp
        | ok cs => have := (ih cs).1 rfl; simp at this
      | ok bs =>
        rw [hl] at ih
        simp only [Except.map] at ih
        generalize mapAll (fun a => match f a with
          | .error e => (.error e : Except E C)
          | .ok v => .ok (g v)) l = y at ih ⊢
        have := (ih _).2 ⟨bs, rfl, rfl⟩
        subst this
        simp

/-- **C57** (`group_by`).  For every built-in reducer: the class and the function generated for `group_by` and this reduce
are read as Python code, the function uses nothing outside the model, and it returns exactly the list of the results of the
reducer over the rows of each key, in order of the first appearance of the keys. -/
theorem C57_group_by (L : OpsOk P ops) {cls signature : String} {sigT : List Tok} {sigA : Ast} (h : FnHead f r)
    (hcn : isName cls = true) (hsl : Lx signature.toList sigT) (hsr : Rd sigT sigA)
    (hg : ∀ g ∈ gs, g ∉ "data_" :: f.args) (ha : ArgsOkG (f.args ++ gs)) (haA : ArgsOk (f.args ++ gs))
    (hcall : CallOkG P f r cls 1 vals)
    {keyOf : V → Except E (PVal V)} (hk : KeyOk P (f.args ++ gs) (envOf f.args vals) sigA keyOf)
    (hb : BOk P condSem (f.args ++ gs) (envOf f.args vals) false 0 u) (hin : u.initial = none)
    (ho : OutOk P ops (f.args ++ gs) (envOf f.args vals) u o dt da dflt fin (varGroup 0) (place false 0) pt pa)
    (hsort : SortOk P (f.args ++ gs) (envOf f.args vals) r.sort sort) (hq : @EquivBEq (PVal V) ⟨P.keyEq⟩) :
    Source (containerCode [u.text]) [.class_ "AggData" (classBody 1)] ∧
    ∃ b, Source (groupCode { f with result := groupResult (o.text (varGroup 0)) } cls signature [u.text]) b ∧ ∀ rows,
      callDef P f.name (.data rows :: vals) b ≠ .error none ∧ ∀ out,
      callDef P f.name (.data rows :: vals) b = .ok out ↔
        ∃ ks ss, keysOf keyOf rows = .ok ks ∧
          mapAll (fun k => outcome condSem (@Fn.reducer V E P.beq ops u.f) dflt (u.hash false 0) u.codes.cond none u.x u.y
            (@rowsWith _ _ _ ⟨P.keyEq⟩ keyOf k rows)) (@firstSeen _ ⟨P.keyEq⟩ ks) = .ok ss ∧
          sort (P.newList (ss.map (Option.map fin))) = .ok out := by
  letI := P.beq
  letI : BEq (PVal V) := ⟨P.keyEq⟩
  obtain ⟨h0, b, h1, h2⟩ := group_one L h hcn hsl hsr hg ha haA hcall hk hb ho hsort
  refine ⟨h0, b, h1, fun rows => ⟨?_, fun out => ?_⟩⟩
  · rw [h2]
    exact lift_modelled
  · have hred : u.red P ops false 0 = redOf (u.f.reducer ops) (u.hash false 0) u.codes.cond none u.x u.y := by
      simp only [BRed.red, hin]
    have hC : ∀ d, groupBy condSem keyOf [u.red P ops false 0] rows = .ok d ↔
        groupSpec condSem keyOf [u.red P ops false 0] rows = .ok d := fun d => by
      refine C33_builtins_partial ops condSem keyOf _ ?_ ?_ rows d
      · intro a ha
        rw [List.mem_singleton.1 ha, hred]
        exact ⟨_, fn_builtin ops u.f, _, _, _, _, rfl⟩
      · intro a ha a' ha' _
        rw [List.mem_singleton.1 ha, List.mem_singleton.1 ha']
        exact ⟨rfl, rfl, rfl⟩
    have hone := eachGroup_one condSem keyOf (u.red P ops false 0) rows (outOf (u.f.reducer ops) dflt fin)
    have hout : ∀ rws, andThen (alone condSem (u.red P ops false 0) rws) (outOf (u.f.reducer ops) dflt fin) =
        (outcome condSem (u.f.reducer ops) dflt (u.hash false 0) u.codes.cond none u.x u.y rws).map (Option.map fin) := by
      intro rws
      simp only [outcome, ← hred, outOf]
      cases alone condSem (u.red P ops false 0) rws <;> rfl
    rw [h2, lift_ok, andThen_ok]
    simp only [andThen_ok, hC, groupSpec]
    cases keysOf keyOf rows with
    | error e => simp
    | ok ks =>
      simp only [Except.ok.injEq, exists_eq_left']
      simp only [hout, mapAll_map] at hone
      constructor
      · rintro ⟨w, ⟨d, e1, e2⟩, e3⟩
        cases hm : mapAll (fun g => outOf (u.f.reducer ops) dflt fin (g.2.headD none)) d with
        | error x => rw [hm] at e2; cases e2
        | ok ws =>
          rw [hm] at e2
          cases e2
          obtain ⟨bs, e4, rfl⟩ := (hone _ ws).1 ⟨d, e1, hm⟩
          exact ⟨ks, bs, rfl, e4, e3⟩
      · rintro ⟨_, ss, rfl, e1, e2⟩
        obtain ⟨d, e3, e4⟩ := (hone _ (ss.map (Option.map fin))).2 ⟨ss, e1, rfl⟩
        exact ⟨_, ⟨d, e3, by rw [e4]; rfl⟩, e2⟩

end

/-! ## C58 -/

section
variable {P : Py V E} {ops : Ops V E} {condSem : String → V → Except E Bool} {args : List String}
  {env : String → Option (PVal V)} {us : List (BRed V E)}

/-- What is needed of the reduces of a `group_by`: no `initial`, the codes are read and mean what is said, and the name of
the variable of a reduce does not occur in its codes. -/
structure ReducesOk (P : Py V E) (condSem : String → V → Except E Bool) (args : List String) (env : String → Option (PVal V))
    (us : List (BRed V E)) : Prop where
  ok : ∀ i u, us[i]? = some u → BOk P condSem args env false i u
  initial : ∀ u ∈ us, u.initial = none
  free : ∀ i u c, us[i]? = some u → u.codes.cond = some c → ¬ (placeText false i).toList <:+: c.toList

/-- Reduces which are compared by the same text keep the same kind of value. -/
theorem ReducesOk.kinds (h : ReducesOk P condSem args env us) (L : OpsOk P ops) (ha : ArgsOk args) : SameKinds false us := by
  intro i j u v hu hv he
  exact (same_hash L ha (h.ok i u hu) (h.ok j v hv) (h.initial u (List.mem_of_getElem? hu))
    (h.initial v (List.mem_of_getElem? hv)) (h.free i u · hu) (h.free j v · hv) he).2.2.2

/-- Reduces which are compared by the same text are the same reduction. -/
theorem ReducesOk.faithful (h : ReducesOk P condSem args env us) (L : OpsOk P ops) (ha : ArgsOk args) :
    Faithful (redsFrom P ops false 0 us) := by
  intro a hma b hmb he
  obtain ⟨i, hi⟩ := List.getElem?_of_mem hma
  obtain ⟨j, hj⟩ := List.getElem?_of_mem hmb
  rw [redsFrom_get, Option.map_eq_some_iff] at hi hj
  obtain ⟨u, hu, rfl⟩ := hi
  obtain ⟨v, hv, rfl⟩ := hj
  simp only [Nat.zero_add] at he ⊢
  have := same_hash (ops := ops) L ha (h.ok i u hu) (h.ok j v hv) (h.initial u (List.mem_of_getElem? hu))
    (h.initial v (List.mem_of_getElem? hv)) (h.free i u · hu) (h.free j v · hv) he
  exact ⟨this.1, this.2.1, this.2.2.1⟩

/-- **C58**.  For every list of built-in reducers (any number of them, equal ones or not, with filters or without): the
class and the function generated for `group_by` with these reduces are read as Python code, the function uses nothing
outside the model, and it returns `out` exactly if the groups, in order of the first appearance of their keys, with each
reduce computed alone over the rows of the group, give values such that their list, sorted, is `out`.  The reduces which
share a variable are found by `code_hash`; nothing is assumed about it. -/
theorem C58_group_by (L : OpsOk P ops) {f : FnText} {r : FnSrc} {vals : List (PVal V)} {gs : List String}
    {cls signature : String} {sigT : List Tok} {sigA : Ast} (h : FnReads f r)
    (hcn : isName cls = true) (hsl : Lx signature.toList sigT) (hsr : Rd sigT sigA)
    (hg : ∀ g ∈ gs, g ∉ "data_" :: f.args) (ha : ArgsOkG (f.args ++ gs)) (haA : ArgsOk (f.args ++ gs))
    (hcall : CallOkG P f r cls (textCompile false (us.map BRed.text)).items.length vals)
    {keyOf : V → Except E (PVal V)} (hk : KeyOk P (f.args ++ gs) (envOf f.args vals) sigA keyOf)
    (hb : ReducesOk P condSem (f.args ++ gs) (envOf f.args vals) us) (hne : us ≠ [])
    {e : Ast} (hra : r.result = .pairs e "signature_" "agg_data_" (.call (.attr (.name "signature_to_agg_data_") "items") [] []))
    {res : PVal V → List (Option (Slot V)) → Except E (Val V)}
    (hres : ∀ st k vs, Ctx (f.args ++ gs) (envOf f.args vals) st → st.loc "signature_" = some k →
      Shows P ops false us st (fun j p => ev P (place false j) st = .ok (p, st)) vs → Yields P e st (res k vs))
    {sort : Val V → Except E (Val V)} (hsort : SortOk P (f.args ++ gs) (envOf f.args vals) r.sort sort)
    (hq : @EquivBEq (PVal V) ⟨P.keyEq⟩) :
    Source (containerCode (us.map BRed.text))
      [.class_ "AggData" (classBody (textCompile false (us.map BRed.text)).items.length)] ∧
    ∃ b, Source (groupCode f cls signature (us.map BRed.text)) b ∧ ∀ rows, callDef P f.name (.data rows :: vals) b ≠ .error none ∧
      ∀ out, callDef P f.name (.data rows :: vals) b = .ok out ↔
        ∃ groups ws, @groupSpec _ _ _ _ ⟨P.keyEq⟩ condSem keyOf (redsFrom P ops false 0 us) rows = .ok groups ∧
          mapAll (fun g => res g.1 g.2) groups = .ok ws ∧ sort (P.newList ws) = .ok out := by
  letI := P.beq
  letI : BEq (PVal V) := ⟨P.keyEq⟩
  obtain ⟨h0, b, h1, h2⟩ := group_builtin L h hcn hsl hsr hg ha haA hcall hk (hb.kinds L haA) hb.ok hne hra hres hsort
  refine ⟨h0, b, h1, fun rows => ⟨?_, fun out => ?_⟩⟩
  · rw [h2]
    exact lift_modelled
  · have hC : ∀ d, groupBy condSem keyOf (redsFrom P ops false 0 us) rows = .ok d ↔
        groupSpec condSem keyOf (redsFrom P ops false 0 us) rows = .ok d := fun d => by
      refine C33_builtins_partial ops condSem keyOf _ ?_ (hb.faithful L haA) rows d
      intro a hma
      obtain ⟨i, hi⟩ := List.getElem?_of_mem hma
      rw [redsFrom_get, Option.map_eq_some_iff] at hi
      obtain ⟨u, hu, rfl⟩ := hi
      simp only [BRed.red, hb.initial u (List.mem_of_getElem? hu)]
      exact ⟨_, fn_builtin ops u.f, _, _, _, _, rfl⟩
    rw [h2, lift_ok, andThen_ok]
    simp only [andThen_ok, hC]
    constructor
    · rintro ⟨w, ⟨d, e1, e2⟩, e3⟩
      cases hm : mapAll (fun g => res g.1 g.2) d with
      | error x => rw [hm] at e2; cases e2
      | ok ws =>
        rw [hm] at e2
        cases e2
        exact ⟨d, ws, e1, hm, e3⟩
    · rintro ⟨d, ws, e1, e2, e3⟩
      exact ⟨_, ⟨d, e1, by rw [e2]; rfl⟩, e3⟩

end

end Verif.Stmt
