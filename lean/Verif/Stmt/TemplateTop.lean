import Verif.Stmt.TemplateLink

/-!
# Stmt: generated aggregation functions with built-in reducers

Source: `/repo/src/convtools/aggregations.py` lines 285-483, 876-914, 1143-1277.
-/

set_option autoImplicit false

namespace Verif.Stmt

open Verif.Text Verif.Agg Verif.Reducers

variable {V E : Type}

/-- The variables of the reduces hold these slots; `get` says what a variable holds. -/
structure Shows (P : Py V E) (ops : Ops V E) (m : Bool) (us : List (BRed V E)) (st : St V) (get : Nat → PVal V → Prop)
    (vs : List (Option (Slot V))) : Prop where
  length : vs.length = us.length
  at_ : ∀ (n j : Nat) u v, us[n]? = some u → (textCompile m (us.map BRed.text)).slotOf[n]? = some j → vs[n]? = some v →
    u.f.Holds v ∧ ∃ p, get j p ∧ Valid st.heap p ∧ dec st.heap p = v.map (enc P ops u.f.factory)

/-- The slots which say what the variables hold. -/
def slotsFrom (P : Py V E) (us : List (BRed V E)) (vs : List (Option (DVal V))) : List (Option (Slot V)) :=
  List.zipWith (fun u v => v.bind (dcd P u.f.tag)) us vs

section
variable {P : Py V E} {ops : Ops V E} {m : Bool} {us : List (BRed V E)}

theorem liftsFrom_get : ∀ {us : List (BRed V E)} {i n : Nat},
    (liftsFrom P ops m i us)[n]? = (us[n]?).map (fun u => liftRed P ops u.f (u.red P ops m (i + n)))
  | [], _, _ => by simp [liftsFrom]
  | u :: us, i, 0 => by simp [liftsFrom]
  | u :: us, i, n + 1 => by
    simp only [liftsFrom, List.getElem?_cons_succ, liftsFrom_get (us := us)]
    congr 1
    funext v
    rw [Nat.add_assoc, Nat.add_comm 1 n]

theorem liftsFrom_length : ∀ {us : List (BRed V E)} {i : Nat}, (liftsFrom P ops m i us).length = us.length
  | [], _ => rfl
  | u :: us, i => by simp [liftsFrom, liftsFrom_length (us := us)]

theorem slotsFrom_out (hs : SameKinds m us) {out : List (Option (Slot V))} {out' : List (Option (DVal V))}
    (h : OutRel (slotKinds P ops m us) (redsFrom P ops m 0 us) out out') : slotsFrom P us out' = out := by
  obtain ⟨h1, h2, h3⟩ := h
  rw [redsFrom_length] at h1 h2
  refine List.ext_getElem? (fun n => ?_)
  simp only [slotsFrom, List.getElem?_zipWith]
  cases hu : us[n]? with
  | none =>
    have := List.getElem?_eq_none_iff.1 hu
    rw [List.getElem?_eq_none (l := out) (by omega)]
  | some u =>
    have hn := (List.getElem?_eq_some_iff.1 hu).1
    have ha : out[n]? = some out[n] := List.getElem?_eq_getElem (by omega)
    have hb : out'[n]? = some out'[n] := List.getElem?_eq_getElem (by omega)
    have hr : (redsFrom P ops m 0 us)[n]? = some (u.red P ops m n) := by
      rw [redsFrom_get, hu, Option.map_some, Nat.zero_add]
    have h4 := h3 n _ _ _ hr ha hb
    have hk : slotKinds P ops m us (u.red P ops m n).hash = _ := slotKinds_at (P := P) (ops := ops) hs hu
    rw [hk] at h4
    obtain ⟨h5, h6⟩ := h4
    rw [ha, hb, h6]
    simp only [Option.some.injEq]
    cases ho : out[n] with
    | none => rfl
    | some s =>
      rw [ho] at h5
      exact dcd_enc P ops _ (h5 s rfl)

theorem holds_get {st : St V} {get : Nat → PVal V → Prop} : ∀ {slots : List (Nat × (Option (DVal V) → Prop))}
    {vs : List (Option (DVal V))}, Holds st get slots vs → slots.length = vs.length ∧ ∀ {n : Nat} {j k v},
      slots[n]? = some (j, k) → vs[n]? = some v → ∃ p, get j p ∧ dec st.heap p = v ∧ Fits k st.heap p := by
  intro slots vs h
  refine ⟨All2.length h, ?_⟩
  intro n j k v h1 h2
  obtain ⟨b, h3, h4⟩ := All2.get h h1
  rw [h3] at h2
  obtain rfl := Option.some.inj h2
  exact h4

theorem shows_of {condSem : String → V → Except E Bool} {args : List String} {env : String → Option (PVal V)}
    (hs : SameKinds m us)
    (hl : Linked P condSem args env m (kinds P ops m us) 0 (us.map BRed.text) (liftsFrom P ops m 0 us))
    {st : St V} {get : Nat → PVal V → Prop} {vs : List (Option (DVal V))}
    (h : Holds st get (slotsOf (kinds P ops m us) m (us.map BRed.text) (liftsFrom P ops m 0 us)) vs) :
    Shows P ops m us st get (slotsFrom P us vs) := by
  obtain ⟨h1, h2⟩ := holds_get h
  obtain ⟨e1, _⟩ := compile_rel hl
  have hlen : (textCompile m (us.map BRed.text)).slotOf.length = us.length := by
    rw [e1, (compile_inv m _).len, liftsFrom_length]
  have hv : vs.length = us.length := by
    rw [← h1, slotsOf, List.length_zip, hlen, List.length_map, liftsFrom_length, Nat.min_self]
  refine ⟨by simp [slotsFrom, hv], ?_⟩
  intro n j u v hu hj hw
  have hn := (List.getElem?_eq_some_iff.1 hu).1
  have hb : vs[n]? = some vs[n] := List.getElem?_eq_getElem (by omega)
  obtain ⟨p, h3, h4, h5⟩ := h2 (n := n) (j := j) (k := u.f.kind P ops) (v := vs[n]) (by
    have hk : kinds P ops m us (liftRed P ops u.f (u.red P ops m n)).hash = u.f.kind P ops := kinds_at hs hu
    rw [slotsOf, List.getElem?_zip_eq_some]
    refine ⟨hj, ?_⟩
    rw [List.getElem?_map, liftsFrom_get, hu, Option.map_some, Option.map_some, Nat.zero_add, hk]) hb
  have h6 := h5.kind
  rw [h4] at h6
  simp only [slotsFrom, List.getElem?_zipWith, hu, hb, Option.some.injEq] at hw
  subst hw
  cases hd : vs[n] with
  | none =>
    rw [hd] at h4
    exact ⟨u.f.holds_none, p, h3, h5.valid, h4⟩
  | some d =>
    obtain ⟨s, h7, rfl⟩ := h6 d hd
    rw [hd] at h4
    simp only [Option.bind_some, dcd_enc P ops _ h7]
    exact ⟨by intro x hx; cases hx; exact h7, p, h3, h5.valid, h4⟩

end

/-- The function generated for `c.aggregate` with built-in reducers: its text is read as Python code, and a call of it
does what the models of aggregations and of the reducers say. -/
theorem aggregate_builtin {P : Py V E} {ops : Ops V E} (L : OpsOk P ops) {condSem : String → V → Except E Bool} {f : FnText}
    {r : FnSrc} {vals : List (PVal V)} {gs : List String} (hg : ∀ g ∈ gs, g ∉ "data_" :: f.args) (h : FnReads f r)
    (ha : ArgsOk (f.args ++ gs)) (hcall : CallOk P f r vals) {us : List (BRed V E)} (hs : SameKinds true us)
    (hb : ∀ i u, us[i]? = some u → BOk P condSem (f.args ++ gs) (envOf f.args vals) true i u) (hne : us ≠ [])
    {ra : Ast} (hra : r.result = .expr ra) {res : List (Option (Slot V)) → Except E (Val V)}
    (hres : ∀ st vs, Ctx (f.args ++ gs) (envOf f.args vals) st →
      Shows P ops true us st (fun j p => st.loc (varAgg j) = some p) vs →
      Yields P ra st (res vs))
    {sort : Val V → Except E (Val V)} (hsort : SortOk P (f.args ++ gs) (envOf f.args vals) r.sort sort) :
    ∃ b, Source (aggCode f (us.map BRed.text)) b ∧ ∀ rows, callDef P f.name (.data rows :: vals) b =
      lift (andThen (andThen (aggregate condSem (redsFrom P ops true 0 us) rows) res) sort) := by
  have hl := linked_builtin L ha hs hb
  obtain ⟨b, h1, h2⟩ := aggregate_runs (kd := kinds P ops true us) kinds_none hg h ha hcall hl (by simpa using hne) hra
    (res := fun vs => res (slotsFrom P us vs)) (fun st vs hc hh => hres st _ hc (shows_of hs hl hh)) hsort
  refine ⟨b, h1, fun rows => ?_⟩
  rw [h2 rows]
  congr 2
  have := aggregate_param (condSem := condSem) slotKinds_pairing (lifts_rel (P := P) (ops := ops) hs) rows
  generalize aggregate condSem (redsFrom P ops true 0 us) rows = x at this ⊢
  generalize aggregate condSem (liftsFrom P ops true 0 us) rows = y at this ⊢
  cases this with
  | error e => rfl
  | ok ho => simp only [andThen, slotsFrom_out hs ho]

/-- The functions generated for `group_by` with built-in reducers. -/
theorem group_builtin {P : Py V E} {ops : Ops V E} (L : OpsOk P ops) {condSem : String → V → Except E Bool} {f : FnText}
    {r : FnSrc} {cls signature : String} {sigT : List Tok} {sigA : Ast} {vals : List (PVal V)} (h : FnReads f r)
    (hcn : isName cls = true) (hsl : Lx signature.toList sigT) (hsr : Rd sigT sigA) {gs : List String}
    (hg : ∀ g ∈ gs, g ∉ "data_" :: f.args) (ha : ArgsOkG (f.args ++ gs)) (haA : ArgsOk (f.args ++ gs)) {us : List (BRed V E)}
    (hcall : CallOkG P f r cls (textCompile false (us.map BRed.text)).items.length vals)
    {keyOf : V → Except E (PVal V)} (hk : KeyOk P (f.args ++ gs) (envOf f.args vals) sigA keyOf)
    (hs : SameKinds false us)
    (hb : ∀ i u, us[i]? = some u → BOk P condSem (f.args ++ gs) (envOf f.args vals) false i u) (hne : us ≠ [])
    {e : Ast} (hra : r.result = .pairs e "signature_" "agg_data_" (.call (.attr (.name "signature_to_agg_data_") "items") [] []))
    {res : PVal V → List (Option (Slot V)) → Except E (Val V)}
    (hres : ∀ st k vs, Ctx (f.args ++ gs) (envOf f.args vals) st → st.loc "signature_" = some k →
      Shows P ops false us st (fun j p => ev P (place false j) st = .ok (p, st)) vs →
      Yields P e st (res k vs))
    {sort : Val V → Except E (Val V)} (hsort : SortOk P (f.args ++ gs) (envOf f.args vals) r.sort sort) :
    Source (containerCode (us.map BRed.text))
      [.class_ "AggData" (classBody (textCompile false (us.map BRed.text)).items.length)] ∧
    ∃ b, Source (groupCode f cls signature (us.map BRed.text)) b ∧ ∀ rows, callDef P f.name (.data rows :: vals) b =
      lift (andThen (andThen (@groupBy _ _ _ _ ⟨P.keyEq⟩ condSem keyOf (redsFrom P ops false 0 us) rows)
        (fun d => (mapAll (fun g => res g.1 g.2) d).map P.newList)) sort) := by
  letI : BEq (PVal V) := ⟨P.keyEq⟩
  have hl := linked_builtin L haA hs hb
  obtain ⟨h0, b, h1, h2⟩ := group_runs (kd := kinds P ops false us) kinds_none h hcn hsl hsr hg ha hcall hk hl
    (by simpa using hne) hra (res := fun k vs => res k (slotsFrom P us vs))
    (fun st k vs hc hsig hh => hres st k _ hc hsig (shows_of hs hl hh)) hsort
  refine ⟨h0, b, h1, fun rows => ?_⟩
  rw [h2 rows]
  congr 2
  have := groupBy_param (condSem := condSem) slotKinds_pairing (lifts_rel (P := P) (ops := ops) hs) rows keyOf
  generalize groupBy condSem keyOf (redsFrom P ops false 0 us) rows = x at this ⊢
  generalize groupBy condSem keyOf (liftsFrom P ops false 0 us) rows = y at this ⊢
  cases this with
  | error e => rfl
  | ok ho =>
    simp only [andThen]
    congr 1
    induction ho with
    | nil => rfl
    | cons hg _ ih =>
      obtain ⟨hg1, hg2⟩ := hg
      simp only [mapAll, ih, hg1, slotsFrom_out hs hg2]

end Verif.Stmt
