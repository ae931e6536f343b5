import Verif.Stmt.InlineRed

/-!
# Stmt: reduces with inline expressions — property C71

Source: `/repo/src/convtools/aggregations.py` lines 23-42, 116-176, 788-945, 1069-1199.
-/

set_option autoImplicit false

namespace Verif.Stmt

open Verif.Text Verif.Agg Verif.Reducers

variable {V E : Type}

/-! ## The text by which reduces are compared plays no role in what they compute -/

theorem foldRows_inline (fns : String → Option V → V → Except E V) (m : Bool) (i : Nat) (u : IRed V E) :
    ∀ (rows : List V) (a : Option (DVal V)), foldRows (u.red fns m i) a rows = foldRows (u.parts.red fns m i) a rows
  | [], a => by cases a <;> rfl
  | row :: rows, none => by
    have e : (u.red fns m i).init = (u.parts.red fns m i).init := rfl
    simp only [foldRows, e]
    split <;> [exact foldRows_inline fns m i u rows _; rfl]
  | row :: rows, some x => by
    have e : (u.red fns m i).two = (u.parts.red fns m i).two := rfl
    simp only [foldRows, e]
    split <;> [exact foldRows_inline fns m i u rows _; rfl]

theorem alone_inline (fns : String → Option V → V → Except E V) (condSem : String → V → Except E Bool) (m : Bool) (i : Nat)
    (u : IRed V E) (rows : List V) : alone condSem (u.red fns m i) rows = alone condSem (u.parts.red fns m i) rows := by
  have e : (u.red fns m i).cond = (u.parts.red fns m i).cond := rfl
  simp only [alone, e]
  split <;> [exact foldRows_inline fns m i u _ _; rfl]

theorem allAlone_inline (fns : String → Option V → V → Except E V) (condSem : String → V → Except E Bool) (m : Bool) (rows : List V) :
    ∀ (us : List (IRed V E)) (i : Nat),
      allAlone condSem rows (inlinesFrom fns m i us) = allAlone condSem rows (customsFrom fns m i (us.map IRed.parts))
  | [], _ => rfl
  | u :: us, i => by
    simp only [inlinesFrom, List.map_cons, customsFrom, allAlone, alone_inline, allAlone_inline fns condSem m rows us (i + 1)]

theorem groupSpec_inline {K : Type} [BEq K] (fns : String → Option V → V → Except E V) (condSem : String → V → Except E Bool)
    (keyOf : V → Except E K) (us : List (IRed V E)) (rows : List V) :
    groupSpec condSem keyOf (inlinesFrom fns false 0 us) rows =
      groupSpec condSem keyOf (customsFrom fns false 0 (us.map IRed.parts)) rows := by
  simp only [groupSpec]
  split <;> [skip; rfl]
  next ks _ =>
  induction firstSeen ks with
  | nil => rfl
  | cons k ks ih => simp only [eachGroup, ih, allAlone_inline]

/-! ## Reduces which are written by the same codes -/

/-- The codes of the reduces are the same. -/
def CRed.SameCodes (u v : CRed V E) : Prop := u.cond = v.cond ∧ u.g = v.g ∧ u.code = v.code ∧ u.initial = v.initial

section
variable {P : Py V E} {condSem : String → V → Except E Bool} {args : List String} {env : String → Option (PVal V)}
  {fns : String → Option V → V → Except E V} {us : List (IRed V E)}

theorem inline_pair (ha : ArgsOk args) {i j : Nat} {u v : IRed V E} (ou : IOk P condSem args env false fns i u)
    (ov : IOk P condSem args env false fns j v) (he : u.parts.SameCodes v.parts) :
    (u.red fns false i).cond = (v.red fns false j).cond ∧ (u.red fns false i).init = (v.red fns false j).init ∧
      (u.red fns false i).two = (v.red fns false j).two := by
  have ru := ou.reads.initial
  have rv := ov.reads.initial
  have iu := ou.initial
  have iv := ov.initial
  have xu := ou.reads.x
  have xv := ov.reads.x
  have gu := ou.x
  have gv := ov.x
  clear ou ov
  obtain ⟨u, tu⟩ := u
  obtain ⟨v, tv⟩ := v
  obtain ⟨hc, hg, hx, hin⟩ := he
  simp only at hc hg hx hin ru rv iu iv xu xv gu gv
  obtain ⟨xt, ex⟩ := xu
  obtain ⟨xt', ex'⟩ := xv
  rw [hx] at ex
  have hxx : u.x = v.x := by
    have h1 := gu
    rw [code_det ex ex'] at h1
    exact gives_det ha h1 gv
  have hss : u.start = v.start := by
    have r1 := ru
    have r2 := rv
    have s1 := iu
    have s2 := iv
    rw [hin] at r1
    cases hvi : v.initial with
    | none =>
      rw [hvi] at r1 r2
      cases hua : u.ia with
      | some a => rw [hua] at r1; exact r1.elim
      | none =>
        cases hva : v.ia with
        | some a => rw [hva] at r2; exact r2.elim
        | none =>
          rw [hua] at s1
          rw [hva] at s2
          cases hus : u.start with
          | some s => rw [hus] at s1; exact s1.elim
          | none =>
            cases hvs : v.start with
            | some s => rw [hvs] at s2; exact s2.elim
            | none => rfl
    | some t =>
      rw [hvi] at r1 r2
      cases hua : u.ia with
      | none => rw [hua] at r1; exact r1.elim
      | some a =>
        cases hva : v.ia with
        | none => rw [hva] at r2; exact r2.elim
        | some b =>
          rw [hua] at s1 r1
          rw [hva] at s2 r2
          cases hus : u.start with
          | none => rw [hus] at s1; exact s1.elim
          | some s =>
            cases hvs : v.start with
            | none => rw [hvs] at s2; exact s2.elim
            | some s' =>
              rw [hus] at s1
              rw [hvs] at s2
              obtain ⟨it, r1⟩ := r1
              obtain ⟨it', r2⟩ := r2
              rw [code_det r1 r2] at s1
              exact congrArg some (gives_det ha s1 s2)
  refine ⟨hc, ?_, ?_⟩
  · simp only [IRed.red, CRed.red, hss, hxx, hg]
  · simp only [IRed.red, CRed.red, hxx, hg]

theorem inline_faithful (ha : ArgsOk args) (h : ∀ i u, us[i]? = some u → IOk P condSem args env false fns i u)
    (hh : ∀ i j (u v : IRed V E), us[i]? = some u → us[j]? = some v → u.hash false i = v.hash false j → u.parts.SameCodes v.parts) :
    Faithful (inlinesFrom fns false 0 us) := by
  intro a hma b hmb he
  obtain ⟨i, hi⟩ := List.getElem?_of_mem hma
  obtain ⟨j, hj⟩ := List.getElem?_of_mem hmb
  rw [inlinesFrom_get, Option.map_eq_some_iff] at hi hj
  obtain ⟨u, hu, rfl⟩ := hi
  obtain ⟨v, hv, rfl⟩ := hj
  simp only [Nat.zero_add] at he ⊢
  exact inline_pair ha (h i u hu) (h j v hv) (hh i j u v hu hv he)

end

/-! ## C71 -/

section
variable {P : Py V E} {condSem : String → V → Except E Bool} {f : FnText} {r : FnSrc} {vals : List (PVal V)} {gs : List String}
  {fns : String → Option V → V → Except E V} {us : List (IRed V E)} {u : IRed V E} {sort : Val V → Except E (Val V)}

/-- The variables of the reduces hold these values; `none` is the sentinel. -/
def HoldsInline (P : Py V E) (st : St V) (us : List (IRed V E)) (vs : List (Option V)) : Prop :=
  vs.length = us.length ∧ ∀ (n : Nat) (s : Option V), vs[n]? = some s → ∃ j, (textCompile false (us.map IRed.text)).slotOf[n]? = some j ∧
    ev P (place false j) st = .ok (pval s, st)

/-- **C71** (`group_by`).  For every list of reduces with inline expressions (any number of them, with `initial` or
without, with filters or without, equal ones or not): the class and the function generated for `group_by` with these
reduces are read as Python code, the function uses nothing outside the model, and it returns `out` exactly if the groups,
in order of the first appearance of their keys, with the left folds over the rows of the group of what the inline
expressions compute, give values such that their list, sorted, is `out`.  The format strings are those which are filled
with two arguments, stand for operands, and have fields apart from names; `fns` says what each of them computes.

Missing: additional arguments (C72).  Reduces which are compared by the same text (`code_hash`) have to be written by the same
codes: for inline expressions this may fail (`C35_refuted_group_by`). -/
theorem C71_group_by_partial {cls signature : String} {sigT : List Tok} {sigA : Ast} (h : FnReads f r)
    (hcn : isName cls = true) (hsl : Lx signature.toList sigT) (hsr : Rd sigT sigA)
    (hg : ∀ g ∈ gs, g ∉ "data_" :: f.args) (ha : ArgsOkG (f.args ++ gs)) (haA : ArgsOk (f.args ++ gs))
    (hcall : CallOkG P f r cls (textCompile false (us.map IRed.text)).items.length vals)
    {keyOf : V → Except E (PVal V)} (hk : KeyOk P (f.args ++ gs) (envOf f.args vals) sigA keyOf)
    (hb : ∀ i u, us[i]? = some u → IOk P condSem (f.args ++ gs) (envOf f.args vals) false fns i u)
    (hhash : ∀ i j (u v : IRed V E), us[i]? = some u → us[j]? = some v → u.hash false i = v.hash false j → u.parts.SameCodes v.parts)
    (hne : us ≠ [])
    {e : Ast} (hra : r.result = .pairs e "signature_" "agg_data_" (.call (.attr (.name "signature_to_agg_data_") "items") [] []))
    {res : PVal V → List (Option V) → Except E (Val V)}
    (hres : ∀ st k vs, Ctx (f.args ++ gs) (envOf f.args vals) st → st.loc "signature_" = some k →
      HoldsInline P st us vs → Yields P e st (res k vs))
    (hsort : SortOk P (f.args ++ gs) (envOf f.args vals) r.sort sort)
    (hq : @EquivBEq (PVal V) ⟨P.keyEq⟩) :
    Source (containerCode (us.map IRed.text))
      [.class_ "AggData" (classBody (textCompile false (us.map IRed.text)).items.length)] ∧
    ∃ b, Source (groupCode f cls signature (us.map IRed.text)) b ∧ ∀ rows, callDef P f.name (.data rows :: vals) b ≠ .error none ∧
      ∀ out, callDef P f.name (.data rows :: vals) b = .ok out ↔
        ∃ groups ws, @customGroups _ _ _ ⟨P.keyEq⟩ (onVals fns) condSem keyOf (us.map IRed.parts) rows = .ok groups ∧
          mapAll (fun g => res g.1 g.2) groups = .ok ws ∧ sort (P.newList ws) = .ok out := by
  letI : BEq (PVal V) := ⟨P.keyEq⟩
  have hl : Linked P condSem (f.args ++ gs) (envOf f.args vals) false (fun _ => UserVal) 0 (us.map IRed.text)
      (inlinesFrom fns false 0 us) := linked_inline (fun n u hu => by rw [Nat.zero_add]; exact hb n u hu)
  obtain ⟨h0, b, h1, h2⟩ := C56_group_by_partial (kd := fun _ => UserVal) (fun _ => ⟨none, rfl⟩) h hcn hsl hsr hg ha hcall hk hl
    (by simpa using hne) hra (res := fun k vs => res k (vs.map undval))
    (fun st k vs hc hsig hh => by
      refine hres st k _ hc hsig ?_
      obtain ⟨g1, g2⟩ := all2_vals (fun s hs => by
        have := (List.of_mem_zip hs).2
        rw [List.mem_map] at this
        obtain ⟨_, _, h⟩ := this
        exact h.symm) hh
      have hlen : (textCompile false (us.map IRed.text)).slotOf.length = us.length := by
        rw [(compile_rel hl).1, (compile_inv false _).len, inlinesFrom_length]
      refine ⟨?_, fun n s hs => ?_⟩
      · rw [List.length_map, g1, slotsOf, List.length_zip, List.length_map, hlen, inlinesFrom_length, Nat.min_self]
      · rw [List.getElem?_map, Option.map_eq_some_iff] at hs
        obtain ⟨v, hv, rfl⟩ := hs
        obtain ⟨j, s, e1, rfl, e3⟩ := g2 n v hv
        refine ⟨j, ?_, by rw [undval_dval]; exact e3⟩
        rw [slotsOf, List.getElem?_zip_eq_some] at e1
        exact e1.1)
    hsort hq (inline_faithful haA hb hhash)
    (fun a hm => by
      obtain ⟨i, hi⟩ := List.getElem?_of_mem hm
      rw [inlinesFrom_get, Option.map_eq_some_iff] at hi
      obtain ⟨u, _, rfl⟩ := hi
      intro hun
      cases hun)
    (fun a hm hun => by
      obtain ⟨i, hi⟩ := List.getElem?_of_mem hm
      rw [inlinesFrom_get, Option.map_eq_some_iff] at hi
      obtain ⟨u, _, rfl⟩ := hi
      cases hun)
  refine ⟨h0, b, h1, fun rows => ⟨(h2 rows).1, fun out => ?_⟩⟩
  rw [(h2 rows).2 out]
  simp only [groupSpec_inline, groupSpec_custom]
  have hm : ∀ groups : List (PVal V × List (Option V)), mapAll (fun g => res g.1 (g.2.map undval)) (groups.map fun g => (g.1, g.2.map dval)) =
      mapAll (fun g => res g.1 g.2) groups := by
    intro groups
    induction groups with
    | nil => rfl
    | cons g groups ih =>
      have : ∀ l : List (Option V), (l.map dval).map undval = l := by
        intro l
        rw [List.map_map]
        exact (List.map_congr_left (fun s _ => undval_dval s)).trans (List.map_id l)
      simp only [List.map_cons, mapAll, ih, this]
  cases hcg : customGroups (onVals fns) condSem keyOf (us.map IRed.parts) rows with
  | error x => simp [Except.map]
  | ok groups =>
    simp only [Except.map, Except.ok.injEq, exists_and_left, exists_eq_left', hm]

/-- **C71** (`c.aggregate`).  For a reduce with an inline expression, with `initial` or without, with a filter or without:
the generated function is read as Python code, it uses nothing outside the model, and it returns `out` exactly if the left
fold, over the rows which pass the filter, of what the inline expression computes gives a value which, replaced by the
default if there is nothing to reduce, and sorted, is `out`.

Missing: several reduces; additional arguments (C72). -/
theorem C71_aggregate_partial (hg : ∀ g ∈ gs, g ∉ "data_" :: f.args) (h : FnHead f r)
    (ha : ArgsOk (f.args ++ gs)) (hcall : CallOk P f r vals)
    (hb : IOk P condSem (f.args ++ gs) (envOf f.args vals) true fns 0 u)
    {d : Option String} {dt : Option (List Tok)} {da : Option Ast} {dflt : Option (Except E (Val V))}
    (hd : match d, dt, da with
      | none, none, none => True
      | some d, some t, some a => Code d.toList t a
      | _, _, _ => False)
    (hdv : ∀ st, Ctx (f.args ++ gs) (envOf f.args vals) st → DefaultOk P st da dflt)
    (hsort : SortOk P (f.args ++ gs) (envOf f.args vals) r.sort sort) :
    ∃ b, Source (aggCode { f with result := OutCode.text ⟨d, fun v => v⟩ (varAgg 0) } [u.text]) b ∧ ∀ rows,
      callDef P f.name (.data rows :: vals) b ≠ .error none ∧ ∀ out,
      callDef P f.name (.data rows :: vals) b = .ok out ↔
        ∃ s w, u.parts.spec (onVals fns) condSem rows = .ok s ∧ customOut dflt s = .ok w ∧ sort w = .ok out := by
  have hcode := out_code (o := ⟨d, fun v => v⟩) (v := varAgg 0) hd ⟨(place_code true 0).lx, (place_code true 0).pr.rd⟩
    ⟨(place_code true 0).lx, (place_code true 0).pr.rd⟩
  have hr := h.reads hcode
  have hl : Linked P condSem (f.args ++ gs) (envOf f.args vals) true (fun _ => UserVal) 0 ([u].map IRed.text)
      (inlinesFrom fns true 0 [u]) := linked_inline (fun n v hv => by
        cases n with
        | zero => cases hv; exact hb
        | succ n => simp at hv)
  obtain ⟨b, h1, h2⟩ := C56_aggregate_partial (kd := fun _ => UserVal) (fun _ => ⟨none, rfl⟩)
    (f := { f with result := OutCode.text ⟨d, fun v => v⟩ (varAgg 0) })
    (r := { r with
      resultT := outToks dt (placeToks true 0) (placeToks true 0)
      result := .expr (outTree da (place true 0) (place true 0)) })
    (sort := sort) hg hr ha ⟨hcall.length, hcall.none_, hcall.iter⟩ hl (by simp) rfl
    (res := fun vs => customOut dflt (undval (vs.headD none)))
    (fun st vs hc hh => by
      obtain ⟨g1, g2⟩ := all2_vals (fun s hs => by
        have := (List.of_mem_zip hs).2
        rw [List.mem_map] at this
        obtain ⟨_, _, h⟩ := this
        exact h.symm) hh
      have e0 : slotsOf (fun _ => UserVal) true ([u].map IRed.text) (inlinesFrom fns true 0 [u]) = [(0, UserVal)] := by
        rw [slotsOf, List.map_singleton, slotOf_one]
        rfl
      rw [e0] at g1 g2
      match vs, g1 with
      | [v], _ =>
        obtain ⟨j, s, e1, rfl, e3⟩ := g2 0 v rfl
        simp only [List.getElem?_cons_zero, Option.some.injEq, Prod.mk.injEq, and_true] at e1
        subst e1
        have hv : ev P (place true 0) st = .ok (pval s, st) := by
          have := varAgg_const 0
          simp only [place, ev, St.look, this, Bool.false_eq_true, if_false, e3]
        have hx : dec st.heap (pval s) = s.map (fun v => DVal.val (.user v)) := by cases s <;> rfl
        have := out_yields (da := da) (pa := place true 0) (d := dflt) (post := fun s => .ok (dval s)) hc.1 hv hx (hdv st hc)
          ⟨pval s, hv, by cases s <;> rfl⟩
        have eo : outVal dflt (fun s => .ok (dval s)) s = customOut dflt s := by
          cases s <;> cases dflt <;> rfl
        rw [eo] at this
        simpa [undval_dval] using this)
    hsort
    (by
      intro a ha a' ha' _
      rw [List.mem_singleton.1 ha, List.mem_singleton.1 ha']
      exact ⟨rfl, rfl, rfl⟩)
    (by
      intro a ha
      rw [List.mem_singleton.1 ha]
      intro hun
      cases hun)
    (by
      intro a ha
      rw [List.mem_singleton.1 ha]
      exact custom_keeps (m := true) (i := 0) (u := u.parts))
  refine ⟨b, h1, fun rows => ⟨(h2 rows).1, fun out => ?_⟩⟩
  rw [(h2 rows).2 (lastLatest_one condSem _ rows) out]
  simp only [allAlone_inline, allAlone_custom, mapAll, List.map_cons, List.map_nil]
  cases u.parts.spec (onVals fns) condSem rows with
  | error e => simp [Except.map]
  | ok s =>
    simp only [Except.map, Except.ok.injEq, exists_and_left, exists_eq_left', List.map_cons, List.headD_cons, undval_dval]

end

end Verif.Stmt
