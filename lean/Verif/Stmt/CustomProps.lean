import Verif.Stmt.Custom
import Verif.Stmt.Props

/-!
# Stmt: reduces with functions of the user — specification and property C67

Source: `/repo/src/convtools/aggregations.py` lines 116-176, 788-945, 1069-1199.
-/

set_option autoImplicit false

namespace Verif.Stmt

open Verif.Text Verif.Agg Verif.Reducers

variable {V E : Type}

/-! ## Specification -/

/-- A left fold. -/
def foldFn (F : V → V → Except E V) (x : V → Except E V) : V → List V → Except E V
  | acc, [] => .ok acc
  | acc, row :: rows => andThen (x row) (fun v => andThen (F acc v) (fun w => foldFn F x w rows))

/-- What `c.reduce(F, x, initial=start)` is over rows: nothing for no rows; otherwise the values of the rows are folded
from the left, beginning with the first of them, or with `initial` for the first row. -/
def reduceFn (F : V → V → Except E V) (start : Option (V → Except E V)) (x : V → Except E V) : List V → Except E (Option V)
  | [] => .ok none
  | row :: rows =>
    match start with
    | none => andThen (x row) (fun v => (foldFn F x v rows).map some)
    | some s => andThen (s row) (fun a => (foldFn F x a (row :: rows)).map some)

/-- The same over the rows which pass the filter. -/
def CRed.spec (fns : String → V → V → Except E V) (condSem : String → V → Except E Bool) (u : CRed V E) (rows : List V) :
    Except E (Option V) :=
  andThen (passing condSem u.cond rows) (reduceFn (fns u.g) u.start u.x)

/-- The groups in order of the first appearance of their keys, with every reduce over the rows of the group. -/
def customGroups {K : Type} [BEq K] (fns : String → V → V → Except E V) (condSem : String → V → Except E Bool)
    (keyOf : V → Except E K) (us : List (CRed V E)) (rows : List V) : Except E (List (K × List (Option V))) :=
  andThen (keysOf keyOf rows) (fun ks =>
    mapAll (fun k => (mapAll (fun u : CRed V E => u.spec fns condSem (rowsWith keyOf k rows)) us).map (fun vs => (k, vs)))
      (firstSeen ks))

example : reduceFn (E := Unit) (fun a b => .ok (a - b)) none (fun r : Int => .ok (2 * r)) [5, 1, 2] = .ok (some 4) := by rfl

example : reduceFn (E := Unit) (fun a b => .ok (a - b)) (some (fun _ => .ok 100)) (fun r : Int => .ok (2 * r)) [5, 1, 2] =
    .ok (some 84) := by rfl

/-! ## The models agree with it -/

/-- A function which may be given the sentinel, as a function of values. -/
def onVals (fns : String → Option V → V → Except E V) (g : String) (a b : V) : Except E V := fns g (some a) b

theorem foldRows_custom (fns : String → Option V → V → Except E V) (m : Bool) (i : Nat) (u : CRed V E) : ∀ (rows : List V) (a : V),
    foldRows (u.red fns m i) (dval (some a)) rows = (foldFn (onVals fns u.g) u.x a rows).map (fun v => dval (some v))
  | [], a => rfl
  | row :: rows, a => by
    have ih := foldRows_custom fns m i u rows
    simp only [dval] at ih
    simp only [dval, foldRows, foldFn, CRed.red, undval, andThen, onVals]
    cases u.x row with
    | error e => rfl
    | ok v =>
      simp only
      cases fns u.g (some a) v with
      | error e => rfl
      | ok w => exact ih w

theorem alone_custom (fns : String → Option V → V → Except E V) (condSem : String → V → Except E Bool) (m : Bool) (i : Nat)
    (u : CRed V E) (rows : List V) :
    alone condSem (u.red fns m i) rows = (u.spec (onVals fns) condSem rows).map dval := by
  have hc : (u.red fns m i).cond = u.cond := rfl
  simp only [alone, CRed.spec, hc, andThen]
  cases passing condSem u.cond rows with
  | error e => rfl
  | ok kept =>
    simp only
    cases kept with
    | nil => rfl
    | cons row kept =>
      have hf := foldRows_custom fns m i u kept
      have h0 : foldRows (u.red fns m i) none (row :: kept) =
        andThen ((u.red fns m i).init row none) (fun v => foldRows (u.red fns m i) v kept) := by
        simp only [foldRows, andThen]
        cases (u.red fns m i).init row none <;> rfl
      have h1 : (u.red fns m i).init row none =
          (match u.start with
          | none => (u.x row).map (fun v => dval (some v))
          | some s => andThen (s row) (fun a => andThen (u.x row) (fun v =>
              (fns u.g (some a) v).map (fun w => dval (some w))))) := rfl
      rw [h0, h1]
      generalize u.red fns m i = red at hf
      simp only [reduceFn]
      cases u.start with
      | none =>
        simp only [andThen]
        cases u.x row with
        | error e => rfl
        | ok v =>
          simp only [Except.map]
          rw [hf v]
          cases foldFn (onVals fns u.g) u.x v kept <;> rfl
      | some s =>
        simp only [andThen]
        cases s row with
        | error e => rfl
        | ok a =>
          simp only [foldFn, andThen]
          cases u.x row with
          | error e => rfl
          | ok v =>
            simp only [onVals]
            cases fns u.g (some a) v with
            | error e => rfl
            | ok w =>
              simp only [Except.map]
              rw [hf w]
              cases foldFn (onVals fns u.g) u.x w kept <;> rfl

theorem allAlone_custom (fns : String → Option V → V → Except E V) (condSem : String → V → Except E Bool) (m : Bool) (rows : List V) :
    ∀ (us : List (CRed V E)) (i : Nat), allAlone condSem rows (customsFrom fns m i us) =
      (mapAll (fun u : CRed V E => u.spec (onVals fns) condSem rows) us).map (List.map dval)
  | [], _ => rfl
  | u :: us, i => by
    simp only [customsFrom, allAlone, allAlone_custom fns condSem m rows us (i + 1), alone_custom, mapAll]
    cases u.spec (onVals fns) condSem rows with
    | error e => cases mapAll (fun u : CRed V E => u.spec (onVals fns) condSem rows) us <;> rfl
    | ok v => cases mapAll (fun u : CRed V E => u.spec (onVals fns) condSem rows) us <;> rfl

theorem groupSpec_custom {K : Type} [BEq K] (fns : String → Option V → V → Except E V) (condSem : String → V → Except E Bool)
    (keyOf : V → Except E K) (us : List (CRed V E)) (rows : List V) :
    groupSpec condSem keyOf (customsFrom fns false 0 us) rows =
      (customGroups (onVals fns) condSem keyOf us rows).map (List.map (fun g => (g.1, g.2.map dval))) := by
  simp only [groupSpec, customGroups, andThen]
  cases keysOf keyOf rows with
  | error e => rfl
  | ok ks =>
    simp only
    induction firstSeen ks with
    | nil => rfl
    | cons k ks ih =>
      simp only [eachGroup, mapAll, ih, allAlone_custom]
      cases mapAll (fun u : CRed V E => u.spec (onVals fns) condSem (rowsWith keyOf k rows)) us with
      | error e =>
        simp only [Except.map]
      | ok vs =>
        simp only [Except.map]
        generalize mapAll _ ks = y
        cases y <;> rfl

section
variable {P : Py V E} {condSem : String → V → Except E Bool} {args : List String} {env : String → Option (PVal V)}
  {fns : String → Option V → V → Except E V} {us : List (CRed V E)}

theorem custom_keeps {m : Bool} {i : Nat} {u : CRed V E} : Keeps (u.red fns m i) := by
  intro row x v h
  simp only [CRed.red, andThen] at h
  cases hx : u.x row with
  | error e => rw [hx] at h; cases h
  | ok a =>
    rw [hx] at h
    simp only [Except.map] at h
    split at h
    · cases h
    · cases h; simp [dval]

/-- Reduces which are compared by the same text are the same reduction. -/
theorem custom_pair (ha : ArgsOk args) {i j : Nat} {u v : CRed V E} (ou : COk P condSem args env false fns i u)
    (ov : COk P condSem args env false fns j v) (he : u.hash false i = v.hash false j) :
    (u.red fns false i).cond = (v.red fns false j).cond ∧ (u.red fns false i).init = (v.red fns false j).init ∧
      (u.red fns false i).two = (v.red fns false j).two := by
  obtain ⟨hc, hg, hx, hin⟩ := custom_same ou.reads ov.reads ou.free ov.free he
  obtain ⟨xt, ex⟩ := ou.reads.x
  obtain ⟨xt', ex'⟩ := ov.reads.x
  rw [hx] at ex
  have hxx : u.x = v.x := by
    have h1 := ou.x
    rw [code_det ex ex'] at h1
    exact gives_det ha h1 ov.x
  have hss : u.start = v.start := by
    have r1 := ou.reads.initial
    have r2 := ov.reads.initial
    have s1 := ou.initial
    have s2 := ov.initial
    rw [hin] at r1
    cases hvi : v.initial with
    | none =>
      rw [hvi] at r1 r2
      cases hua : u.ia with
      | some a => rw [hua] at r1; exact r1.elim
      | none =>
        cases hva : v.ia with
        | some a => rw [hva] at r2; exact r2.elim
        | none =>
          rw [hua] at s1
          rw [hva] at s2
          cases hus : u.start with
          | some s => rw [hus] at s1; exact s1.elim
          | none =>
            cases hvs : v.start with
            | some s => rw [hvs] at s2; exact s2.elim
            | none => rfl
    | some t =>
      rw [hvi] at r1 r2
      cases hua : u.ia with
      | none => rw [hua] at r1; exact r1.elim
      | some a =>
        cases hva : v.ia with
        | none => rw [hva] at r2; exact r2.elim
        | some b =>
          rw [hua] at s1 r1
          rw [hva] at s2 r2
          cases hus : u.start with
          | none => rw [hus] at s1; exact s1.elim
          | some s =>
            cases hvs : v.start with
            | none => rw [hvs] at s2; exact s2.elim
            | some s' =>
              rw [hus] at s1
              rw [hvs] at s2
              obtain ⟨it, r1⟩ := r1
              obtain ⟨it', r2⟩ := r2
              rw [code_det r1 r2] at s1
              exact congrArg some (gives_det ha s1 s2)
  refine ⟨hc, ?_, ?_⟩
  · simp only [CRed.red, hss, hxx, hg]
  · simp only [CRed.red, hxx, hg]

theorem custom_faithful (ha : ArgsOk args) (h : ∀ i u, us[i]? = some u → COk P condSem args env false fns i u) :
    Faithful (customsFrom fns false 0 us) := by
  intro a hma b hmb he
  obtain ⟨i, hi⟩ := List.getElem?_of_mem hma
  obtain ⟨j, hj⟩ := List.getElem?_of_mem hmb
  rw [customsFrom_get, Option.map_eq_some_iff] at hi hj
  obtain ⟨u, hu, rfl⟩ := hi
  obtain ⟨v, hv, rfl⟩ := hj
  simp only [Nat.zero_add] at he ⊢
  exact custom_pair ha (h i u hu) (h j v hv) he

end

/-! ## C67 -/

section
variable {P : Py V E} {condSem : String → V → Except E Bool} {f : FnText} {r : FnSrc} {vals : List (PVal V)} {gs : List String}
  {fns : String → Option V → V → Except E V} {us : List (CRed V E)} {u : CRed V E} {sort : Val V → Except E (Val V)}

/-- The variables of the reduces hold these values; `none` is the sentinel. -/
def HoldsVals (P : Py V E) (st : St V) (us : List (CRed V E)) (vs : List (Option V)) : Prop :=
  vs.length = us.length ∧ ∀ (n : Nat) (s : Option V), vs[n]? = some s → ∃ j, (textCompile false (us.map CRed.text)).slotOf[n]? = some j ∧
    ev P (place false j) st = .ok (pval s, st)

theorem all2_vals {st : St V} {get : Nat → PVal V → Prop} : ∀ {slots : List (Nat × (Option (DVal V) → Prop))}
    {vs : List (Option (DVal V))}, (∀ s ∈ slots, s.2 = UserVal) → Holds st get slots vs →
    vs.length = slots.length ∧ ∀ (n : Nat) (v : Option (DVal V)), vs[n]? = some v → ∃ j s, slots[n]? = some (j, UserVal) ∧
      v = dval s ∧ get j (pval s)
  | [], [], _, .nil => ⟨rfl, fun n v h => by simp at h⟩
  | s :: slots, v :: vs, hk, .cons h hs => by
    obtain ⟨h1, h2⟩ := all2_vals (fun s hm => hk s (List.mem_cons_of_mem _ hm)) hs
    refine ⟨by simp [h1], fun n w hw => ?_⟩
    cases n with
    | succ n => exact h2 n w hw
    | zero =>
      obtain ⟨p, hp, hd, hf⟩ := h
      simp only [List.getElem?_cons_zero, Option.some.injEq] at hw
      subst hw
      have hk0 := hk s List.mem_cons_self
      have hkind := hf.kind
      rw [hk0] at hkind
      obtain ⟨x, hx⟩ := hkind
      obtain rfl := pval_of hx
      refine ⟨s.1, x, ?_, hd ▸ hx, hp⟩
      rw [List.getElem?_cons_zero, ← hk0]

theorem customsFrom_length (fns : String → Option V → V → Except E V) (m : Bool) : ∀ (us : List (CRed V E)) (i : Nat),
    (customsFrom fns m i us).length = us.length
  | [], _ => rfl
  | _ :: us, i => by simp [customsFrom, customsFrom_length fns m us (i + 1)]

/-- **C67** (`group_by`).  For every list of reduces with functions of the user (any number of them, with `initial` or
without, with filters or without, equal ones or not): the class and the function generated for `group_by` with these
reduces are read as Python code, the function uses nothing outside the model, and it returns `out` exactly if the groups,
in order of the first appearance of their keys, with the left folds of the functions over the rows of the group, give
values such that their list, sorted, is `out`.  Nothing is assumed about `code_hash`, by which the reduces which share a
variable are found.

Missing: additional arguments of the functions (C72), inline expressions in place of functions (C71); a reduce without a default gives
the sentinel if there is nothing to reduce (`C67_refuted_sentinel`). -/
theorem C67_group_by_partial {cls signature : String} {sigT : List Tok} {sigA : Ast} (h : FnReads f r)
    (hcn : isName cls = true) (hsl : Lx signature.toList sigT) (hsr : Rd sigT sigA)
    (hg : ∀ g ∈ gs, g ∉ "data_" :: f.args) (ha : ArgsOkG (f.args ++ gs)) (haA : ArgsOk (f.args ++ gs))
    (hcall : CallOkG P f r cls (textCompile false (us.map CRed.text)).items.length vals)
    {keyOf : V → Except E (PVal V)} (hk : KeyOk P (f.args ++ gs) (envOf f.args vals) sigA keyOf)
    (hb : ∀ i u, us[i]? = some u → COk P condSem (f.args ++ gs) (envOf f.args vals) false fns i u) (hne : us ≠ [])
    {e : Ast} (hra : r.result = .pairs e "signature_" "agg_data_" (.call (.attr (.name "signature_to_agg_data_") "items") [] []))
    {res : PVal V → List (Option V) → Except E (Val V)}
    (hres : ∀ st k vs, Ctx (f.args ++ gs) (envOf f.args vals) st → st.loc "signature_" = some k →
      HoldsVals P st us vs → Yields P e st (res k vs))
    (hsort : SortOk P (f.args ++ gs) (envOf f.args vals) r.sort sort)
    (hq : @EquivBEq (PVal V) ⟨P.keyEq⟩) :
    Source (containerCode (us.map CRed.text))
      [.class_ "AggData" (classBody (textCompile false (us.map CRed.text)).items.length)] ∧
    ∃ b, Source (groupCode f cls signature (us.map CRed.text)) b ∧ ∀ rows, callDef P f.name (.data rows :: vals) b ≠ .error none ∧
      ∀ out, callDef P f.name (.data rows :: vals) b = .ok out ↔
        ∃ groups ws, @customGroups _ _ _ ⟨P.keyEq⟩ (onVals fns) condSem keyOf us rows = .ok groups ∧
          mapAll (fun g => res g.1 g.2) groups = .ok ws ∧ sort (P.newList ws) = .ok out := by
  letI : BEq (PVal V) := ⟨P.keyEq⟩
  have hl : Linked P condSem (f.args ++ gs) (envOf f.args vals) false (fun _ => UserVal) 0 (us.map CRed.text)
      (customsFrom fns false 0 us) := linked_custom (fun n u hu => by rw [Nat.zero_add]; exact hb n u hu)
  obtain ⟨h0, b, h1, h2⟩ := C56_group_by_partial (kd := fun _ => UserVal) (fun _ => ⟨none, rfl⟩) h hcn hsl hsr hg ha hcall hk hl
    (by simpa using hne) hra (res := fun k vs => res k (vs.map undval))
    (fun st k vs hc hsig hh => by
      refine hres st k _ hc hsig ?_
      obtain ⟨g1, g2⟩ := all2_vals (fun s hs => by
        have := (List.of_mem_zip hs).2
        rw [List.mem_map] at this
        obtain ⟨_, _, h⟩ := this
        exact h.symm) hh
      have hlen : (textCompile false (us.map CRed.text)).slotOf.length = us.length := by
        rw [(compile_rel hl).1, (compile_inv false _).len, customsFrom_length]
      refine ⟨?_, fun n s hs => ?_⟩
      · rw [List.length_map, g1, slotsOf, List.length_zip, List.length_map, hlen, customsFrom_length, Nat.min_self]
      · rw [List.getElem?_map, Option.map_eq_some_iff] at hs
        obtain ⟨v, hv, rfl⟩ := hs
        obtain ⟨j, s, e1, rfl, e3⟩ := g2 n v hv
        refine ⟨j, ?_, by rw [undval_dval]; exact e3⟩
        rw [slotsOf, List.getElem?_zip_eq_some] at e1
        exact e1.1)
    hsort hq (custom_faithful haA hb)
    (fun a hm => by
      obtain ⟨i, hi⟩ := List.getElem?_of_mem hm
      rw [customsFrom_get, Option.map_eq_some_iff] at hi
      obtain ⟨u, _, rfl⟩ := hi
      intro hun
      cases hun)
    (fun a hm hun => by
      obtain ⟨i, hi⟩ := List.getElem?_of_mem hm
      rw [customsFrom_get, Option.map_eq_some_iff] at hi
      obtain ⟨u, _, rfl⟩ := hi
      cases hun)
  refine ⟨h0, b, h1, fun rows => ⟨(h2 rows).1, fun out => ?_⟩⟩
  rw [(h2 rows).2 out]
  simp only [groupSpec_custom]
  have hm : ∀ groups : List (PVal V × List (Option V)), mapAll (fun g => res g.1 (g.2.map undval)) (groups.map fun g => (g.1, g.2.map dval)) =
      mapAll (fun g => res g.1 g.2) groups := by
    intro groups
    induction groups with
    | nil => rfl
    | cons g groups ih =>
      have : ∀ l : List (Option V), (l.map dval).map undval = l := by
        intro l
        rw [List.map_map]
        exact (List.map_congr_left (fun s _ => undval_dval s)).trans (List.map_id l)
      simp only [List.map_cons, mapAll, ih, this]
  cases hcg : customGroups (onVals fns) condSem keyOf us rows with
  | error x => simp [Except.map]
  | ok groups =>
    simp only [Except.map, Except.ok.injEq, exists_and_left, exists_eq_left', hm]

/-- The result of a reduce: its default if there is nothing to reduce; without a default, the sentinel. -/
def customOut (dflt : Option (Except E (Val V))) : Option V → Except E (Val V)
  | some v => .ok (dval (some v))
  | none => dflt.getD (.ok none)

/-- **C67** (`c.aggregate`).  For a reduce with a function of the user, with `initial` or without, with a filter or
without: the generated function is read as Python code, it uses nothing outside the model, and it returns `out` exactly if
the left fold of the function over the rows which pass the filter gives a value which, replaced by the default if there is
nothing to reduce, and sorted, is `out`.

Missing: several reduces; additional arguments of the function, inline expressions in place of functions; without a default
the result is the sentinel if there is nothing to reduce (`C67_refuted_sentinel`). -/
theorem C67_aggregate_partial (hg : ∀ g ∈ gs, g ∉ "data_" :: f.args) (h : FnHead f r)
    (ha : ArgsOk (f.args ++ gs)) (hcall : CallOk P f r vals)
    (hb : COk P condSem (f.args ++ gs) (envOf f.args vals) true fns 0 u)
    {d : Option String} {dt : Option (List Tok)} {da : Option Ast} {dflt : Option (Except E (Val V))}
    (hd : match d, dt, da with
      | none, none, none => True
      | some d, some t, some a => Code d.toList t a
      | _, _, _ => False)
    (hdv : ∀ st, Ctx (f.args ++ gs) (envOf f.args vals) st → DefaultOk P st da dflt)
    (hsort : SortOk P (f.args ++ gs) (envOf f.args vals) r.sort sort) :
    ∃ b, Source (aggCode { f with result := OutCode.text ⟨d, fun v => v⟩ (varAgg 0) } [u.text]) b ∧ ∀ rows,
      callDef P f.name (.data rows :: vals) b ≠ .error none ∧ ∀ out,
      callDef P f.name (.data rows :: vals) b = .ok out ↔
        ∃ s w, u.spec (onVals fns) condSem rows = .ok s ∧ customOut dflt s = .ok w ∧ sort w = .ok out := by
  have hcode := out_code (o := ⟨d, fun v => v⟩) (v := varAgg 0) hd ⟨(place_code true 0).lx, (place_code true 0).pr.rd⟩
    ⟨(place_code true 0).lx, (place_code true 0).pr.rd⟩
  have hr := h.reads hcode
  have hl : Linked P condSem (f.args ++ gs) (envOf f.args vals) true (fun _ => UserVal) 0 ([u].map CRed.text)
      (customsFrom fns true 0 [u]) := linked_custom (fun n v hv => by
        cases n with
        | zero => cases hv; exact hb
        | succ n => simp at hv)
  obtain ⟨b, h1, h2⟩ := C56_aggregate_partial (kd := fun _ => UserVal) (fun _ => ⟨none, rfl⟩)
    (f := { f with result := OutCode.text ⟨d, fun v => v⟩ (varAgg 0) })
    (r := { r with
      resultT := outToks dt (placeToks true 0) (placeToks true 0)
      result := .expr (outTree da (place true 0) (place true 0)) })
    (sort := sort) hg hr ha ⟨hcall.length, hcall.none_, hcall.iter⟩ hl (by simp) rfl
    (res := fun vs => customOut dflt (undval (vs.headD none)))
    (fun st vs hc hh => by
      obtain ⟨g1, g2⟩ := all2_vals (fun s hs => by
        have := (List.of_mem_zip hs).2
        rw [List.mem_map] at this
        obtain ⟨_, _, h⟩ := this
        exact h.symm) hh
      have e0 : slotsOf (fun _ => UserVal) true ([u].map CRed.text) (customsFrom fns true 0 [u]) = [(0, UserVal)] := by
        rw [slotsOf, List.map_singleton, slotOf_one]
        rfl
      rw [e0] at g1 g2
      match vs, g1 with
      | [v], _ =>
        obtain ⟨j, s, e1, rfl, e3⟩ := g2 0 v rfl
        simp only [List.getElem?_cons_zero, Option.some.injEq, Prod.mk.injEq, and_true] at e1
        subst e1
        have hv : ev P (place true 0) st = .ok (pval s, st) := by
          have := varAgg_const 0
          simp only [place, ev, St.look, this, Bool.false_eq_true, if_false, e3]
        have hx : dec st.heap (pval s) = s.map (fun v => DVal.val (.user v)) := by cases s <;> rfl
        have := out_yields (da := da) (pa := place true 0) (d := dflt) (post := fun s => .ok (dval s)) hc.1 hv hx (hdv st hc)
          ⟨pval s, hv, by cases s <;> rfl⟩
        have eo : outVal dflt (fun s => .ok (dval s)) s = customOut dflt s := by
          cases s <;> cases dflt <;> rfl
        rw [eo] at this
        simpa [undval_dval] using this)
    hsort
    (by
      intro a ha a' ha' _
      rw [List.mem_singleton.1 ha, List.mem_singleton.1 ha']
      exact ⟨rfl, rfl, rfl⟩)
    (by
      intro a ha
      rw [List.mem_singleton.1 ha]
      intro hun
      cases hun)
    (by
      intro a ha
      rw [List.mem_singleton.1 ha]
      exact custom_keeps)
  refine ⟨b, h1, fun rows => ⟨(h2 rows).1, fun out => ?_⟩⟩
  rw [(h2 rows).2 (lastLatest_one condSem _ rows) out]
  simp only [allAlone_custom, mapAll]
  cases u.spec (onVals fns) condSem rows with
  | error e => simp [Except.map]
  | ok s =>
    simp only [Except.map, Except.ok.injEq, exists_and_left, exists_eq_left', List.map_cons, List.headD_cons, undval_dval]

end

end Verif.Stmt
