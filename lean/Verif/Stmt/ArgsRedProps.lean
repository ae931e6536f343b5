import Verif.Stmt.ArgsRedHash

/-!
# Stmt: reduces with additional arguments — property C72

Source: `/repo/src/convtools/aggregations.py` lines 23-42, 116-176, 788-945, 1069-1199.
-/

set_option autoImplicit false

namespace Verif.Stmt

open Verif.Text Verif.Agg Verif.Reducers

variable {V E : Type}

/-! ## Specification -/

/-- A left fold of a function of the accumulated value and the values of a row. -/
def foldArgs (F : V → List V → Except E V) (xs : List (V → Except E V)) : V → List V → Except E V
  | acc, [] => .ok acc
  | acc, row :: rows => andThen (mapAll (fun x => x row) xs) (fun vs => andThen (F acc vs) (fun w => foldArgs F xs w rows))

/-- What the fold begins with if there is no `initial`: the value of the first row; if there are additional arguments, the
tuple of the values. -/
def firstValue (pack : List V → V) : List V → V
  | [v] => v
  | vs => pack vs

/-- What `c.reduce(F, x, additional_args=…, initial=start)` is over rows; `xs` are `x` and the additional arguments. -/
def reduceArgs (pack : List V → V) (F : V → List V → Except E V) (start : Option (V → Except E V))
    (xs : List (V → Except E V)) : List V → Except E (Option V)
  | [] => .ok none
  | row :: rows =>
    match start with
    | none => andThen (mapAll (fun x => x row) xs) (fun vs => (foldArgs F xs (firstValue pack vs) rows).map some)
    | some s => andThen (s row) (fun a => (foldArgs F xs a (row :: rows)).map some)

/-- The same over the rows which pass the filter. -/
def ARed.spec (pack : List V → V) (fns : Callee → V → List V → Except E V) (condSem : String → V → Except E Bool) (u : ARed V E)
    (rows : List V) : Except E (Option V) :=
  andThen (passing condSem u.cond rows) (reduceArgs pack (fns u.callee) u.start (u.x :: u.moreX))

/-- The groups in order of the first appearance of their keys, with every reduce over the rows of the group. -/
def argGroups {K : Type} [BEq K] (pack : List V → V) (fns : Callee → V → List V → Except E V)
    (condSem : String → V → Except E Bool) (keyOf : V → Except E K) (us : List (ARed V E)) (rows : List V) :
    Except E (List (K × List (Option V))) :=
  andThen (keysOf keyOf rows) (fun ks =>
    mapAll (fun k => (mapAll (fun u : ARed V E => u.spec pack fns condSem (rowsWith keyOf k rows)) us).map (fun vs => (k, vs)))
      (firstSeen ks))

example : reduceArgs (E := Unit) List.sum (fun a vs => .ok (a + vs.prod)) (some fun _ => .ok 100)
    [fun r : Int => .ok r, fun r => .ok (r + 1)] [5, 1, 2] = .ok (some 138) := by rfl

example : reduceArgs (E := Unit) (fun _ => 1000) (fun a vs => .ok (a + vs.prod)) none
    [fun r : Int => .ok r, fun r => .ok (r + 1)] [5, 1, 2] = .ok (some 1008) := by rfl

/-! ## The models agree with it -/

/-- A function which may be given the sentinel, as a function of values. -/
def onFirst (fns : Callee → Option V → List V → Except E V) (c : Callee) (a : V) (vs : List V) : Except E V := fns c (some a) vs

section
variable (pack : List V → V) (fns : Callee → Option V → List V → Except E V) (condSem : String → V → Except E Bool)

theorem foldRows_args (m : Bool) (i : Nat) (u : ARed V E) : ∀ (rows : List V) (a : V),
    foldRows (u.red pack fns m i) (dval (some a)) rows =
      (foldArgs (onFirst fns u.callee) (u.x :: u.moreX) a rows).map (fun v => dval (some v))
  | [], a => rfl
  | row :: rows, a => by
    have ih := foldRows_args m i u rows
    simp only [dval] at ih
    simp only [dval, foldRows, foldArgs, ARed.red, ARed.vals, undval, andThen, onFirst]
    cases mapAll (fun x => x row) (u.x :: u.moreX) with
    | error e => rfl
    | ok vs =>
      simp only
      cases fns u.callee (some a) vs with
      | error e => rfl
      | ok w => exact ih w

theorem first_args (u : ARed V E) (row : V) :
    (match u.moreX with
      | [] => (u.x row).map (fun v => dval (some v))
      | _ => (u.vals row).map (fun vs => dval (some (pack vs)))) =
      (mapAll (fun x => x row) (u.x :: u.moreX)).map (fun vs => dval (some (firstValue pack vs))) := by
  simp only [ARed.vals]
  cases u.moreX with
  | nil =>
    simp only [mapAll]
    cases u.x row <;> rfl
  | cons x xs =>
    simp only [mapAll]
    cases u.x row with
    | error e => rfl
    | ok v =>
      cases x row with
      | error e => rfl
      | ok w => cases mapAll (fun x => x row) xs <;> rfl

theorem alone_args (m : Bool) (i : Nat) (u : ARed V E) (rows : List V) :
    alone condSem (u.red pack fns m i) rows = (u.spec pack (onFirst fns) condSem rows).map dval := by
  have hc : (u.red pack fns m i).cond = u.cond := rfl
  simp only [alone, ARed.spec, hc, andThen]
  cases passing condSem u.cond rows with
  | error e => rfl
  | ok kept =>
    simp only
    cases kept with
    | nil => rfl
    | cons row kept =>
      have hf := foldRows_args pack fns m i u kept
      have h0 : foldRows (u.red pack fns m i) none (row :: kept) =
        andThen ((u.red pack fns m i).init row none) (fun v => foldRows (u.red pack fns m i) v kept) := by
        simp only [foldRows, andThen]
        cases (u.red pack fns m i).init row none <;> rfl
      have h1 : (u.red pack fns m i).init row none =
          (match u.start with
          | none => (mapAll (fun x => x row) (u.x :: u.moreX)).map (fun vs => dval (some (firstValue pack vs)))
          | some s => andThen (s row) (fun a => andThen (mapAll (fun x => x row) (u.x :: u.moreX)) (fun vs =>
              (fns u.callee (some a) vs).map (fun w => dval (some w))))) := by
        rw [← first_args]
        simp only [ARed.red]
        cases u.start <;> rfl
      rw [h0, h1]
      generalize u.red pack fns m i = red at hf
      simp only [reduceArgs]
      cases u.start with
      | none =>
        simp only [andThen]
        cases mapAll (fun x => x row) (u.x :: u.moreX) with
        | error e => rfl
        | ok vs =>
          simp only [Except.map]
          rw [hf]
          cases foldArgs (onFirst fns u.callee) (u.x :: u.moreX) (firstValue pack vs) kept <;> rfl
      | some s =>
        simp only [andThen]
        cases s row with
        | error e => rfl
        | ok a =>
          simp only [foldArgs, andThen]
          cases mapAll (fun x => x row) (u.x :: u.moreX) with
          | error e => rfl
          | ok vs =>
            simp only [onFirst]
            cases fns u.callee (some a) vs with
            | error e => rfl
            | ok w =>
              simp only [Except.map]
              rw [hf w]
              cases foldArgs (onFirst fns u.callee) (u.x :: u.moreX) w kept <;> rfl

theorem allAlone_args (m : Bool) (rows : List V) : ∀ (us : List (ARed V E)) (i : Nat),
    allAlone condSem rows (argsFrom pack fns m i us) =
      (mapAll (fun u : ARed V E => u.spec pack (onFirst fns) condSem rows) us).map (List.map dval)
  | [], _ => rfl
  | u :: us, i => by
    simp only [argsFrom, allAlone, allAlone_args m rows us (i + 1), alone_args, mapAll]
    cases u.spec pack (onFirst fns) condSem rows with
    | error e => cases mapAll (fun u : ARed V E => u.spec pack (onFirst fns) condSem rows) us <;> rfl
    | ok v => cases mapAll (fun u : ARed V E => u.spec pack (onFirst fns) condSem rows) us <;> rfl

theorem groupSpec_args {K : Type} [BEq K] (keyOf : V → Except E K) (us : List (ARed V E)) (rows : List V) :
    groupSpec condSem keyOf (argsFrom pack fns false 0 us) rows =
      (argGroups pack (onFirst fns) condSem keyOf us rows).map (List.map (fun g => (g.1, g.2.map dval))) := by
  simp only [groupSpec, argGroups, andThen]
  cases keysOf keyOf rows with
  | error e => rfl
  | ok ks =>
    simp only
    induction firstSeen ks with
    | nil => rfl
    | cons k ks ih =>
      simp only [eachGroup, mapAll, ih, allAlone_args]
      cases mapAll (fun u : ARed V E => u.spec pack (onFirst fns) condSem (rowsWith keyOf k rows)) us with
      | error e =>
        simp only [Except.map]
      | ok vs =>
        simp only [Except.map]
        generalize mapAll _ ks = y
        cases y <;> rfl

end

theorem args_keeps {pack : List V → V} {fns : Callee → Option V → List V → Except E V} {m : Bool} {i : Nat} {u : ARed V E} :
    Keeps (u.red pack fns m i) := by
  intro row x v h
  simp only [ARed.red, andThen] at h
  cases hx : u.vals row with
  | error e => rw [hx] at h; cases h
  | ok a =>
    rw [hx] at h
    simp only [Except.map] at h
    split at h
    · cases h
    · cases h; simp [dval]

/-! ## Reduces which are written by the same expressions -/

section
variable {P : Py V E} {condSem : String → V → Except E Bool} {args : List String} {env : String → Option (PVal V)}
  {pack : List V → V} {fns : Callee → Option V → List V → Except E V} {us : List (ARed V E)}

theorem gives_all_det (ha : ArgsOk args) : ∀ {as : List Ast} {xs ys : List (V → Except E V)}, AllGive P args env as xs →
    AllGive P args env as ys → xs = ys
  | _, _, _, .nil, .nil => rfl
  | _, _, _, .cons h hs, .cons h' hs' => by rw [gives_det ha h h', gives_all_det ha hs hs']

theorem args_pair (ha : ArgsOk args) {m : Bool} {i j : Nat} {u v : ARed V E} (ou : AOk P condSem args env m pack fns i u)
    (ov : AOk P condSem args env m pack fns j v) (he : u.SameTrees v) :
    (u.red pack fns m i).cond = (v.red pack fns m j).cond ∧ (u.red pack fns m i).init = (v.red pack fns m j).init ∧
      (u.red pack fns m i).two = (v.red pack fns m j).two := by
  have s1 := ou.initial
  have s2 := ov.initial
  have gu := ou.values
  have gv := ov.values
  clear ou ov
  obtain ⟨hc, hg, hx, hin⟩ := he
  rw [hx] at gu
  have hxs := gives_all_det ha gu gv
  have hss : u.start = v.start := by
    rw [hin] at s1
    cases hva : v.ia <;> cases hus : u.start <;> cases hvs : v.start <;> rw [hva, hus] at s1 <;> rw [hva, hvs] at s2 <;>
      first | rfl | exact s1.elim | exact s2.elim | exact congrArg some (gives_det ha s1 s2)
  simp only [List.cons.injEq] at hxs
  refine ⟨hc, ?_, ?_⟩
  · simp only [ARed.red, ARed.vals, hss, hxs.1, hxs.2, hg]
  · simp only [ARed.red, ARed.vals, hxs.1, hxs.2, hg]

theorem args_faithful (ha : ArgsOk args) {m : Bool} (h : ∀ i u, us[i]? = some u → AOk P condSem args env m pack fns i u)
    (hh : ∀ i j (u v : ARed V E), us[i]? = some u → us[j]? = some v → u.hash m i = v.hash m j → u.SameTrees v) :
    Faithful (argsFrom pack fns m 0 us) := by
  intro a hma b hmb he
  obtain ⟨i, hi⟩ := List.getElem?_of_mem hma
  obtain ⟨j, hj⟩ := List.getElem?_of_mem hmb
  rw [argsFrom_get, Option.map_eq_some_iff] at hi hj
  obtain ⟨u, hu, rfl⟩ := hi
  obtain ⟨v, hv, rfl⟩ := hj
  simp only [Nat.zero_add] at he ⊢
  exact args_pair ha (h i u hu) (h j v hv) (hh i j u v hu hv he)

/-- Reduces with functions of the user which are compared by the same text are the same expressions. -/
theorem functions_same (h : ∀ i u, us[i]? = some u → AOk P condSem args env false pack fns i u)
    (hf : ∀ (i : Nat) u, us[i]? = some u → ∃ g, u.callee = .function g ∧ isName g = true ∧ ¬ (placeText false i).toList <:+: g.toList) :
    ∀ i j (u v : ARed V E), us[i]? = some u → us[j]? = some v → u.hash false i = v.hash false j → u.SameTrees v := by
  intro i j u v hu hv he
  obtain ⟨g, g1, g2, g3⟩ := hf i u hu
  obtain ⟨g', g1', g2', g3'⟩ := hf j v hv
  exact args_same g1 g1' g2 g2' g3 g3' (h i u hu).reads (h j v hv).reads (h i u hu).free (h j v hv).free he

end

/-! ## C72 -/

section
variable {P : Py V E} {condSem : String → V → Except E Bool} {f : FnText} {r : FnSrc} {vals : List (PVal V)} {gs : List String}
  {pack : List V → V} {fns : Callee → Option V → List V → Except E V} {us : List (ARed V E)} {u : ARed V E} {sort : Val V → Except E (Val V)}
  {rows : List V}

/-- The variables of the reduces hold these values; `none` is the sentinel. -/
def HoldsArgs (P : Py V E) (m : Bool) (st : St V) (us : List (ARed V E)) (vs : List (Option V)) : Prop :=
  vs.length = us.length ∧ ∀ (n : Nat) (s : Option V), vs[n]? = some s → ∃ j, (textCompile m (us.map ARed.text)).slotOf[n]? = some j ∧
    ev P (place m j) st = .ok (pval s, st)

/-- **C72** (`group_by`).  For every list of reduces with functions of the user or inline expressions, each with any
number of additional arguments (any number of reduces, with `initial` or without, with filters or without, equal ones or not): the class and the function generated for `group_by` with these
reduces are read as Python code, the function uses nothing outside the model, and it returns `out` exactly if the groups,
in order of the first appearance of their keys, with the left folds over the rows of the group of the functions, applied to
the accumulated value and the values of the arguments for the row, give values such that their list, sorted, is `out`.  A
fold without `initial` begins with the value of the first row, or with the tuple of the values if there are additional
arguments.  `fns` says what functions and inline expressions compute.

Missing: inline expressions which are compared by the same text (`code_hash`) have to be the same
expressions: this may fail (`C71_refuted_shared`); for functions it is so (`C72_functions_partial`). -/
theorem C72_group_by_partial {cls signature : String} {sigT : List Tok} {sigA : Ast} (h : FnReads f r)
    (hcn : isName cls = true) (hsl : Lx signature.toList sigT) (hsr : Rd sigT sigA)
    (hg : ∀ g ∈ gs, g ∉ "data_" :: f.args) (ha : ArgsOkG (f.args ++ gs)) (haA : ArgsOk (f.args ++ gs))
    (hcall : CallOkG P f r cls (textCompile false (us.map ARed.text)).items.length vals)
    {keyOf : V → Except E (PVal V)} (hk : KeyOk P (f.args ++ gs) (envOf f.args vals) sigA keyOf)
    (hb : ∀ i u, us[i]? = some u → AOk P condSem (f.args ++ gs) (envOf f.args vals) false pack fns i u)
    (hhash : ∀ i j (u v : ARed V E), us[i]? = some u → us[j]? = some v → u.hash false i = v.hash false j → u.SameTrees v)
    (hne : us ≠ [])
    {e : Ast} (hra : r.result = .pairs e "signature_" "agg_data_" (.call (.attr (.name "signature_to_agg_data_") "items") [] []))
    {res : PVal V → List (Option V) → Except E (Val V)}
    (hres : ∀ st k vs, Ctx (f.args ++ gs) (envOf f.args vals) st → st.loc "signature_" = some k →
      HoldsArgs P false st us vs → Yields P e st (res k vs))
    (hsort : SortOk P (f.args ++ gs) (envOf f.args vals) r.sort sort)
    (hq : @EquivBEq (PVal V) ⟨P.keyEq⟩) :
    Source (containerCode (us.map ARed.text))
      [.class_ "AggData" (classBody (textCompile false (us.map ARed.text)).items.length)] ∧
    ∃ b, Source (groupCode f cls signature (us.map ARed.text)) b ∧ ∀ rows, callDef P f.name (.data rows :: vals) b ≠ .error none ∧
      ∀ out, callDef P f.name (.data rows :: vals) b = .ok out ↔
        ∃ groups ws, @argGroups _ _ _ ⟨P.keyEq⟩ pack (onFirst fns) condSem keyOf us rows = .ok groups ∧
          mapAll (fun g => res g.1 g.2) groups = .ok ws ∧ sort (P.newList ws) = .ok out := by
  letI : BEq (PVal V) := ⟨P.keyEq⟩
  have hl : Linked P condSem (f.args ++ gs) (envOf f.args vals) false (fun _ => UserVal) 0 (us.map ARed.text)
      (argsFrom pack fns false 0 us) := linked_args (fun n u hu => by rw [Nat.zero_add]; exact hb n u hu)
  obtain ⟨h0, b, h1, h2⟩ := C56_group_by_partial (kd := fun _ => UserVal) (fun _ => ⟨none, rfl⟩) h hcn hsl hsr hg ha hcall hk hl
    (by simpa using hne) hra (res := fun k vs => res k (vs.map undval))
    (fun st k vs hc hsig hh => by
      refine hres st k _ hc hsig ?_
      obtain ⟨g1, g2⟩ := all2_vals (fun s hs => by
        have := (List.of_mem_zip hs).2
        rw [List.mem_map] at this
        obtain ⟨_, _, h⟩ := this
        exact h.symm) hh
      have hlen : (textCompile false (us.map ARed.text)).slotOf.length = us.length := by
        rw [(compile_rel hl).1, (compile_inv false _).len, argsFrom_length]
      refine ⟨?_, fun n s hs => ?_⟩
      · rw [List.length_map, g1, slotsOf, List.length_zip, List.length_map, hlen, argsFrom_length, Nat.min_self]
      · rw [List.getElem?_map, Option.map_eq_some_iff] at hs
        obtain ⟨v, hv, rfl⟩ := hs
        obtain ⟨j, s, e1, rfl, e3⟩ := g2 n v hv
        refine ⟨j, ?_, by rw [undval_dval]; exact e3⟩
        rw [slotsOf, List.getElem?_zip_eq_some] at e1
        exact e1.1)
    hsort hq (args_faithful haA hb hhash)
    (fun a hm => by
      obtain ⟨i, hi⟩ := List.getElem?_of_mem hm
      rw [argsFrom_get, Option.map_eq_some_iff] at hi
      obtain ⟨u, _, rfl⟩ := hi
      intro hun
      cases hun)
    (fun a hm hun => by
      obtain ⟨i, hi⟩ := List.getElem?_of_mem hm
      rw [argsFrom_get, Option.map_eq_some_iff] at hi
      obtain ⟨u, _, rfl⟩ := hi
      cases hun)
  refine ⟨h0, b, h1, fun rows => ⟨(h2 rows).1, fun out => ?_⟩⟩
  rw [(h2 rows).2 out]
  simp only [groupSpec_args]
  have hm : ∀ groups : List (PVal V × List (Option V)), mapAll (fun g => res g.1 (g.2.map undval)) (groups.map fun g => (g.1, g.2.map dval)) =
      mapAll (fun g => res g.1 g.2) groups := by
    intro groups
    induction groups with
    | nil => rfl
    | cons g groups ih =>
      have : ∀ l : List (Option V), (l.map dval).map undval = l := by
        intro l
        rw [List.map_map]
        exact (List.map_congr_left (fun s _ => undval_dval s)).trans (List.map_id l)
      simp only [List.map_cons, mapAll, ih, this]
  cases hcg : argGroups pack (onFirst fns) condSem keyOf us rows with
  | error x => simp [Except.map]
  | ok groups =>
    simp only [Except.map, Except.ok.injEq, exists_and_left, exists_eq_left', hm]

/-- **C72** (`group_by`, functions).  The same if all reduces are with functions: nothing is assumed about `code_hash`, by
which the reduces which share a variable are found.

Missing: a reduce without a default gives the sentinel if there is nothing to reduce (`C67_refuted_sentinel`). -/
theorem C72_functions_partial {cls signature : String} {sigT : List Tok} {sigA : Ast} (h : FnReads f r)
    (hcn : isName cls = true) (hsl : Lx signature.toList sigT) (hsr : Rd sigT sigA)
    (hg : ∀ g ∈ gs, g ∉ "data_" :: f.args) (ha : ArgsOkG (f.args ++ gs)) (haA : ArgsOk (f.args ++ gs))
    (hcall : CallOkG P f r cls (textCompile false (us.map ARed.text)).items.length vals)
    {keyOf : V → Except E (PVal V)} (hk : KeyOk P (f.args ++ gs) (envOf f.args vals) sigA keyOf)
    (hb : ∀ i u, us[i]? = some u → AOk P condSem (f.args ++ gs) (envOf f.args vals) false pack fns i u)
    (hfn : ∀ (i : Nat) u, us[i]? = some u → ∃ g, u.callee = .function g ∧ isName g = true ∧ ¬ (placeText false i).toList <:+: g.toList)
    (hne : us ≠ [])
    {e : Ast} (hra : r.result = .pairs e "signature_" "agg_data_" (.call (.attr (.name "signature_to_agg_data_") "items") [] []))
    {res : PVal V → List (Option V) → Except E (Val V)}
    (hres : ∀ st k vs, Ctx (f.args ++ gs) (envOf f.args vals) st → st.loc "signature_" = some k →
      HoldsArgs P false st us vs → Yields P e st (res k vs))
    (hsort : SortOk P (f.args ++ gs) (envOf f.args vals) r.sort sort)
    (hq : @EquivBEq (PVal V) ⟨P.keyEq⟩) :
    Source (containerCode (us.map ARed.text))
      [.class_ "AggData" (classBody (textCompile false (us.map ARed.text)).items.length)] ∧
    ∃ b, Source (groupCode f cls signature (us.map ARed.text)) b ∧ ∀ rows, callDef P f.name (.data rows :: vals) b ≠ .error none ∧
      ∀ out, callDef P f.name (.data rows :: vals) b = .ok out ↔
        ∃ groups ws, @argGroups _ _ _ ⟨P.keyEq⟩ pack (onFirst fns) condSem keyOf us rows = .ok groups ∧
          mapAll (fun g => res g.1 g.2) groups = .ok ws ∧ sort (P.newList ws) = .ok out := 
  C72_group_by_partial h hcn hsl hsr hg ha haA hcall hk hb (functions_same hb hfn) hne hra hres hsort hq

/-- **C72** (`c.aggregate`).  For a reduce with a function or an inline expression and any number of additional arguments,
with `initial` or without, with a filter or without: the generated function is read as Python code, it uses nothing outside the model, and it returns `out` exactly if the left
fold, over the rows which pass the filter, with all arguments gives a value which, replaced by the
default if there is nothing to reduce, and sorted, is `out`.

Missing: several reduces (`C72_several_partial`, with the same filter). -/
theorem C72_aggregate_partial (hg : ∀ g ∈ gs, g ∉ "data_" :: f.args) (h : FnHead f r)
    (ha : ArgsOk (f.args ++ gs)) (hcall : CallOk P f r vals)
    (hb : AOk P condSem (f.args ++ gs) (envOf f.args vals) true pack fns 0 u)
    {d : Option String} {dt : Option (List Tok)} {da : Option Ast} {dflt : Option (Except E (Val V))}
    (hd : match d, dt, da with
      | none, none, none => True
      | some d, some t, some a => Code d.toList t a
      | _, _, _ => False)
    (hdv : ∀ st, Ctx (f.args ++ gs) (envOf f.args vals) st → DefaultOk P st da dflt)
    (hsort : SortOk P (f.args ++ gs) (envOf f.args vals) r.sort sort) :
    ∃ b, Source (aggCode { f with result := OutCode.text ⟨d, fun v => v⟩ (varAgg 0) } [u.text]) b ∧ ∀ rows,
      callDef P f.name (.data rows :: vals) b ≠ .error none ∧ ∀ out,
      callDef P f.name (.data rows :: vals) b = .ok out ↔
        ∃ s w, u.spec pack (onFirst fns) condSem rows = .ok s ∧ customOut dflt s = .ok w ∧ sort w = .ok out := by
  have hcode := out_code (o := ⟨d, fun v => v⟩) (v := varAgg 0) hd ⟨(place_code true 0).lx, (place_code true 0).pr.rd⟩
    ⟨(place_code true 0).lx, (place_code true 0).pr.rd⟩
  have hr := h.reads hcode
  have hl : Linked P condSem (f.args ++ gs) (envOf f.args vals) true (fun _ => UserVal) 0 ([u].map ARed.text)
      (argsFrom pack fns true 0 [u]) := linked_args (fun n v hv => by
        cases n with
        | zero => cases hv; exact hb
        | succ n => simp at hv)
  obtain ⟨b, h1, h2⟩ := C56_aggregate_partial (kd := fun _ => UserVal) (fun _ => ⟨none, rfl⟩)
    (f := { f with result := OutCode.text ⟨d, fun v => v⟩ (varAgg 0) })
    (r := { r with
      resultT := outToks dt (placeToks true 0) (placeToks true 0)
      result := .expr (outTree da (place true 0) (place true 0)) })
    (sort := sort) hg hr ha ⟨hcall.length, hcall.none_, hcall.iter⟩ hl (by simp) rfl
    (res := fun vs => customOut dflt (undval (vs.headD none)))
    (fun st vs hc hh => by
      obtain ⟨g1, g2⟩ := all2_vals (fun s hs => by
        have := (List.of_mem_zip hs).2
        rw [List.mem_map] at this
        obtain ⟨_, _, h⟩ := this
        exact h.symm) hh
      have e0 : slotsOf (fun _ => UserVal) true ([u].map ARed.text) (argsFrom pack fns true 0 [u]) = [(0, UserVal)] := by
        rw [slotsOf, List.map_singleton, slotOf_one]
        rfl
      rw [e0] at g1 g2
      match vs, g1 with
      | [v], _ =>
        obtain ⟨j, s, e1, rfl, e3⟩ := g2 0 v rfl
        simp only [List.getElem?_cons_zero, Option.some.injEq, Prod.mk.injEq, and_true] at e1
        subst e1
        have hv : ev P (place true 0) st = .ok (pval s, st) := by
          have := varAgg_const 0
          simp only [place, ev, St.look, this, Bool.false_eq_true, if_false, e3]
        have hx : dec st.heap (pval s) = s.map (fun v => DVal.val (.user v)) := by cases s <;> rfl
        have := out_yields (da := da) (pa := place true 0) (d := dflt) (post := fun s => .ok (dval s)) hc.1 hv hx (hdv st hc)
          ⟨pval s, hv, by cases s <;> rfl⟩
        have eo : outVal dflt (fun s => .ok (dval s)) s = customOut dflt s := by
          cases s <;> cases dflt <;> rfl
        rw [eo] at this
        simpa [undval_dval] using this)
    hsort
    (by
      intro a ha a' ha' _
      rw [List.mem_singleton.1 ha, List.mem_singleton.1 ha']
      exact ⟨rfl, rfl, rfl⟩)
    (by
      intro a ha
      rw [List.mem_singleton.1 ha]
      intro hun
      cases hun)
    (by
      intro a ha
      rw [List.mem_singleton.1 ha]
      exact args_keeps (m := true) (i := 0) (u := u))
  refine ⟨b, h1, fun rows => ⟨(h2 rows).1, fun out => ?_⟩⟩
  rw [(h2 rows).2 (lastLatest_one condSem _ rows) out]
  simp only [allAlone_args, mapAll, List.map_cons, List.map_nil]
  cases u.spec pack (onFirst fns) condSem rows with
  | error e => simp [Except.map]
  | ok s =>
    simp only [Except.map, Except.ok.injEq, exists_and_left, exists_eq_left', List.map_cons, List.headD_cons, undval_dval]

/-- A value of the reduce is there as soon as there is a row which passes the filter. -/
theorem spec_none {fns : Callee → V → List V → Except E V} {kept : List V} (hp : passing condSem u.cond rows = .ok kept) :
    u.spec pack fns condSem rows = .ok none ↔ kept = [] := by
  simp only [ARed.spec, hp, andThen]
  cases kept with
  | nil => simp [reduceArgs]
  | cons row kept =>
    simp only [reduceArgs, reduceCtorEq, iff_false]
    cases u.start with
    | none =>
      simp only [andThen]
      cases mapAll (fun x => x row) (u.x :: u.moreX) with
      | error e => simp
      | ok vs =>
        simp only
        cases foldArgs (fns u.callee) (u.x :: u.moreX) (firstValue pack vs) kept <;> simp [Except.map]
    | some s =>
      simp only [andThen]
      cases s row with
      | error e => simp
      | ok a =>
        simp only
        cases foldArgs (fns u.callee) (u.x :: u.moreX) a (row :: kept) <;> simp [Except.map]

/-- Reduces with the same filter get their values in the same row. -/
theorem same_latest (hc : ∀ u ∈ us, ∀ v ∈ us, u.cond = v.cond) :
    LastLatest condSem (reduceBlocks (compile true (argsFrom pack fns true 0 us)).items) rows := by
  intro pre _ b hb p hp hx q hq hn
  have hmem : ∀ q : Nat × Red V (DVal V) E, q ∈ allParts (reduceBlocks (compile true (argsFrom pack fns true 0 us)).items) →
      ∃ (i : Nat) (u : ARed V E), us[i]? = some u ∧ q.2 = u.red pack fns true i := by
    intro q hq
    have hred : q.2 ∈ argsFrom pack fns true 0 us := by
      obtain ⟨it, hit, rfl⟩ := List.mem_map.1 ((allParts_perm _).mem_iff.1 hq)
      exact (compile_inv true _).reds it hit
    obtain ⟨i, hi⟩ := List.getElem?_of_mem hred
    rw [argsFrom_get, Option.map_eq_some_iff, Nat.zero_add] at hi
    obtain ⟨u, hu, he⟩ := hi
    exact ⟨i, u, hu, he.symm⟩
  obtain ⟨i, u, hu, hpu⟩ := hmem p (List.mem_flatMap.2 ⟨b, List.mem_of_getLast? hb, hp⟩)
  obtain ⟨j, v, hv, hqv⟩ := hmem q hq
  obtain ⟨x, hx⟩ := hx
  rw [hpu, alone_args] at hx
  rw [hqv, alone_args] at hn
  have hcc := hc u (List.mem_of_getElem? hu) v (List.mem_of_getElem? hv)
  cases hk : passing condSem v.cond pre with
  | error e =>
    simp only [ARed.spec, hk, andThen] at hn
    cases hn
  | ok kept =>
    have h1 : v.spec pack (onFirst fns) condSem pre = .ok none := by
      cases hs : v.spec pack (onFirst fns) condSem pre with
      | error e => rw [hs] at hn; cases hn
      | ok s =>
        rw [hs] at hn
        cases s with
        | none => rfl
        | some w => cases hn
    have h2 := (spec_none hk).1 h1
    have h3 := (spec_none (u := u) (pack := pack) (fns := onFirst fns) (by rw [hcc]; exact hk)).2 h2
    rw [h3] at hx
    cases hx

/-- **C72** (`c.aggregate`, several reduces).  For every list of reduces with functions or inline expressions, each with any
number of additional arguments, with `initial` or without, all with the same filter or all without one: the text generated
for `c.aggregate` is read as Python code, the function in it uses nothing outside the model, and for all rows it returns
`out` exactly if the left folds over the rows which pass the filter give values such that the expression of the result,
sorted, is `out`.

Missing: reduces with different filters (`C34_refuted`: others may lose a row); reduces which are compared by the same text
have to be the same expressions (`C35_refuted_aggregate`). -/
theorem C72_several_partial (hg : ∀ g ∈ gs, g ∉ "data_" :: f.args) (h : FnReads f r)
    (ha : ArgsOk (f.args ++ gs)) (hcall : CallOk P f r vals)
    (hb : ∀ i u, us[i]? = some u → AOk P condSem (f.args ++ gs) (envOf f.args vals) true pack fns i u)
    (hhash : ∀ i j (u v : ARed V E), us[i]? = some u → us[j]? = some v → u.hash true i = v.hash true j → u.SameTrees v)
    (hcond : ∀ u ∈ us, ∀ v ∈ us, u.cond = v.cond) (hne : us ≠ [])
    {ra : Ast} (hra : r.result = .expr ra) {res : List (Option V) → Except E (Val V)}
    (hres : ∀ st vs, Ctx (f.args ++ gs) (envOf f.args vals) st → HoldsArgs P true st us vs → Yields P ra st (res vs))
    (hsort : SortOk P (f.args ++ gs) (envOf f.args vals) r.sort sort) :
    ∃ b, Source (aggCode f (us.map ARed.text)) b ∧ ∀ rows, callDef P f.name (.data rows :: vals) b ≠ .error none ∧ ∀ out,
      callDef P f.name (.data rows :: vals) b = .ok out ↔
        ∃ vs w, mapAll (fun u : ARed V E => u.spec pack (onFirst fns) condSem rows) us = .ok vs ∧ res vs = .ok w ∧
          sort w = .ok out := by
  have hl : Linked P condSem (f.args ++ gs) (envOf f.args vals) true (fun _ => UserVal) 0 (us.map ARed.text)
      (argsFrom pack fns true 0 us) := linked_args (fun n u hu => by rw [Nat.zero_add]; exact hb n u hu)
  obtain ⟨b, h1, h2⟩ := C56_aggregate_partial (kd := fun _ => UserVal) (fun _ => ⟨none, rfl⟩) hg h ha hcall hl
    (by simpa using hne) hra (res := fun vs => res (vs.map undval))
    (fun st vs hc hh => by
      refine hres st _ hc ?_
      obtain ⟨g1, g2⟩ := all2_vals (fun s hs => by
        have := (List.of_mem_zip hs).2
        rw [List.mem_map] at this
        obtain ⟨_, _, h⟩ := this
        exact h.symm) hh
      have hlen : (textCompile true (us.map ARed.text)).slotOf.length = us.length := by
        rw [(compile_rel hl).1, (compile_inv true _).len, argsFrom_length]
      refine ⟨?_, fun n s hs => ?_⟩
      · rw [List.length_map, g1, slotsOf, List.length_zip, List.length_map, hlen, argsFrom_length, Nat.min_self]
      · rw [List.getElem?_map, Option.map_eq_some_iff] at hs
        obtain ⟨v, hv, rfl⟩ := hs
        obtain ⟨j, s, e1, rfl, e3⟩ := g2 n v hv
        refine ⟨j, ?_, ?_⟩
        · rw [slotsOf, List.getElem?_zip_eq_some] at e1
          exact e1.1
        · have := varAgg_const j
          rw [undval_dval]
          simp only [place, ev, St.look, this, Bool.false_eq_true, if_false, e3])
    hsort (args_faithful ha hb hhash)
    (fun a hm => by
      obtain ⟨i, hi⟩ := List.getElem?_of_mem hm
      rw [argsFrom_get, Option.map_eq_some_iff] at hi
      obtain ⟨u, _, rfl⟩ := hi
      intro hun
      cases hun)
    (fun a hm => by
      obtain ⟨i, hi⟩ := List.getElem?_of_mem hm
      rw [argsFrom_get, Option.map_eq_some_iff] at hi
      obtain ⟨u, _, rfl⟩ := hi
      exact args_keeps)
  refine ⟨b, h1, fun rows => ⟨(h2 rows).1, fun out => ?_⟩⟩
  rw [(h2 rows).2 (same_latest hcond) out]
  simp only [allAlone_args]
  cases mapAll (fun u : ARed V E => u.spec pack (onFirst fns) condSem rows) us with
  | error e => simp [Except.map]
  | ok vs =>
    have : (vs.map dval).map undval = vs := by
      rw [List.map_map]
      exact (List.map_congr_left (fun s _ => undval_dval s)).trans (List.map_id vs)
    simp only [Except.map, Except.ok.injEq, exists_and_left, exists_eq_left', this]

end

end Verif.Stmt
