import Verif.Stmt.TemplateResult
import Verif.Agg.Props
import Verif.Reducers.Props

/-!
# Stmt: aggregations with one built-in reducer, up to the result

Source: `/repo/src/convtools/aggregations.py` lines 285-483, 876-945, 1143-1277.
-/

set_option autoImplicit false

namespace Verif.Stmt

open Verif.Text Verif.Agg Verif.Reducers

variable {V E : Type}

/-- The texts filled into the templates, without the code of the result. -/
structure FnHead (f : FnText) (r : FnSrc) : Prop where
  name : isName f.name = true
  args : f.args.all isName = true
  nodup : ("data_" :: f.args).Nodup
  noneL : Lx f.none_.toList r.noneT
  noneE : Ex r.noneT r.noneA
  sort : match r.sort with
    | none => f.sorting = ""
    | some (ts, a) => f.sorting.toList.head? ≠ some ' ' ∧ f.sorting ≠ "" ∧ Lx f.sorting.toList ts ∧ Pr ts a

theorem rd_ex {ts : List Tok} {a : Ast} (h : Rd ts a) : Ex ts a := by
  have := h.expr (rest := []) (by decide)
  rwa [List.append_nil] at this

theorem FnHead.reads {f : FnText} {r : FnSrc} (h : FnHead f r) {s : String} {ts : List Tok} {a : Ast}
    (hs : Code s.toList ts a) :
    FnReads { f with result := s }
      { r with
        resultT := ts
        result := .expr a } :=
  ⟨h.name, h.args, h.nodup, h.noneL, h.noneE, hs.lx, rd_ex hs.rd, h.sort⟩

/-- What the code of the result of reduce number `n` needs: the codes of `default` and of the post conversion are read in
this way; `default` gives the value of `dflt`, or the default of the reducer, and the post conversion of the variable `va`
gives what the model of the reducer says.  `fin` says how the slots of the models are shown. -/
structure OutOk (P : Py V E) (ops : Ops V E) (args : List String) (env : String → Option (PVal V)) (u : BRed V E) (o : OutCode)
    (dt : Option (List Tok)) (da : Option Ast) (dflt : Option (Slot V)) (fin : Slot V → DVal V) (v : String) (va : Ast)
    (pt : List Tok) (pa : Ast) : Prop where
  default : match o.default, dt, da with
    | none, none, none => True
    | some d, some t, some a => Code d.toList t a
    | _, _, _ => False
  defaultVal : match da, dflt.or (@Fn.reducer V E P.beq ops u.f).default with
    | none, none => True
    | some a, some s => ∀ st, Ctx args env st → Yields P a st (.ok (some (fin s)))
    | _, _ => False
  post : Code (o.post v).toList pt pa
  postVal : ∀ st p (s : Slot V), Ctx args env st → ev P va st = .ok (p, st) → u.f.Holds (some s) →
    dec st.heap p = some (enc P ops u.f.factory s) →
    Yields P pa st (((@Fn.reducer V E P.beq ops u.f).post s).map (fun s => some (fin s)))
  postNone : dflt.or (@Fn.reducer V E P.beq ops u.f).default = none → ∀ st, Ctx args env st →
    ev P va st = .ok (.sentinel, st) → Yields P pa st (.ok none)

section
variable {P : Py V E} {ops : Ops V E} {args : List String} {env : String → Option (PVal V)} {u : BRed V E} {o : OutCode}
  {dt : Option (List Tok)} {da : Option Ast} {dflt : Option (Slot V)} {fin : Slot V → DVal V} {v : String} {va : Ast}
  {pt : List Tok} {pa : Ast}

/-- The code of the result of a reduce gives the result of the reducer. -/
theorem outOk_yields (h : OutOk P ops args env u o dt da dflt fin v va pt pa) {st : St V} (hc : Ctx args env st)
    {p : PVal V} {x : Option (Slot V)} (hv : ev P va st = .ok (p, st)) (hh : u.f.Holds x)
    (hx : dec st.heap p = x.map (enc P ops u.f.factory)) :
    Yields P (outTree da va pa) st (outOf (@Fn.reducer V E P.beq ops u.f) dflt fin x) := by
  have key : ∀ d : Option (Except E (Val V)),
      d = (dflt.or (@Fn.reducer V E P.beq ops u.f).default).map (fun s => .ok (some (fin s))) →
      DefaultOk P st da d := by
    rintro d rfl
    have := h.defaultVal
    revert this
    generalize dflt.or (@Fn.reducer V E P.beq ops u.f).default = y
    cases da <;> cases y <;> intro this
    · trivial
    · exact this.elim
    · exact this.elim
    · exact this st hc
  by_cases hsent : x = none ∧ (dflt.or (@Fn.reducer V E P.beq ops u.f).default).isSome
  · obtain ⟨rfl, hs⟩ := hsent
    obtain ⟨s, hs⟩ := Option.isSome_iff_exists.1 hs
    have hk := key _ rfl
    rw [hs] at hk
    have hev := ev_isSentinel (P := P) hc.none_ hv
    rw [hx] at hev
    have ht : ∀ b, truth P (P.ofBool b) = .ok b := P.truthy_bool
    cases da with
    | none => exact hk.elim
    | some a =>
      have h2 : ev P (outTree (some a) va pa) st = ev P a st := by
        simp only [outTree]
        rw [ev.eq_def]
        simp only [hev, ht, Option.map_none, Option.isNone_none, if_true]
      unfold Yields
      rw [h2]
      have h3 : outOf (@Fn.reducer V E P.beq ops u.f) dflt fin none = .ok (some (fin s)) := by
        cases dflt with
        | some d => cases hs; rfl
        | none =>
          have : (@Fn.reducer V E P.beq ops u.f).default = some s := hs
          simp [outOf, resultOf, Except.map, this]
      rw [h3]
      exact hk
  · have hpost : Yields P pa st (outOf (@Fn.reducer V E P.beq ops u.f) dflt fin x) := by
      cases x with
      | some s =>
        have := h.postVal st p s hc hv hh hx
        have e : outOf (@Fn.reducer V E P.beq ops u.f) dflt fin (some s) =
            ((@Fn.reducer V E P.beq ops u.f).post s).map (fun s => some (fin s)) := by
          simp only [outOf, resultOf]
          cases (@Fn.reducer V E P.beq ops u.f).post s <;> rfl
        rw [e]
        exact this
      | none =>
        have hnone : dflt.or (@Fn.reducer V E P.beq ops u.f).default = none := by
          rw [← Option.not_isSome_iff_eq_none]
          exact fun hs => hsent ⟨rfl, hs⟩
        obtain ⟨h1, h2⟩ := Option.or_eq_none_iff.1 hnone
        have e : outOf (@Fn.reducer V E P.beq ops u.f) dflt fin none = .ok none := by
          simp [outOf, resultOf, Except.map, h1, h2]
        rw [e]
        obtain rfl := dec_none hx
        exact h.postNone hnone st hc hv
    have hout := out_yields (P := P) (S := Slot V) (x := x) (pa := pa) (va := va) (enc := enc P ops u.f.factory) hc.none_ hv hx
      (post := fun _ => outOf (@Fn.reducer V E P.beq ops u.f) dflt fin x) (key _ rfl) hpost
    have : outVal ((dflt.or (@Fn.reducer V E P.beq ops u.f).default).map (fun s => (.ok (some (fin s)) : Except E (Val V))))
        (fun _ => outOf (@Fn.reducer V E P.beq ops u.f) dflt fin x) x = outOf (@Fn.reducer V E P.beq ops u.f) dflt fin x := by
      cases x with
      | some s => cases dflt.or (@Fn.reducer V E P.beq ops u.f).default <;> rfl
      | none =>
        have hnone : dflt.or (@Fn.reducer V E P.beq ops u.f).default = none := by
          rw [← Option.not_isSome_iff_eq_none]
          exact fun hs => hsent ⟨rfl, hs⟩
        rw [hnone]
        rfl
    rwa [this] at hout

end

/-- With one reduce the last block is the only one. -/
theorem lastLatest_one {V' : Type} (condSem : String → V → Except E Bool) (r : Red V V' E) (rows : List V) :
    LastLatest condSem (reduceBlocks (compile true [r]).items) rows := by
  intro pre _ b hb p hp hx q hq hc
  have hmem : ∀ b ∈ reduceBlocks (compile true [r]).items, ∀ q ∈ b.parts, q.2 = r := by
    intro b hb q hq
    have : q ∈ allParts (reduceBlocks (compile true [r]).items) := List.mem_flatMap.2 ⟨b, hb, hq⟩
    obtain ⟨it, hit, rfl⟩ := List.mem_map.1 ((allParts_perm _).mem_iff.1 this)
    exact List.mem_singleton.1 ((compile_inv true [r]).reds it hit)
  obtain ⟨b', hb', hq'⟩ := List.mem_flatMap.1 hq
  obtain ⟨x, hx⟩ := hx
  rw [hmem b (List.mem_of_getLast? hb) p hp] at hx
  rw [hmem b' hb' q hq', hx] at hc
  cases hc

/-- What was found for one reduce, as values. -/
def shownAs (fin : Slot V → DVal V) (x : Except E (Option (Slot V))) : Except E (Val V) := x.map (Option.map fin)

section
variable {P : Py V E} {ops : Ops V E} {condSem : String → V → Except E Bool} {f : FnText} {r : FnSrc} {vals : List (PVal V)}
  {gs : List String} {u : BRed V E} {o : OutCode} {dt : Option (List Tok)} {da : Option Ast} {dflt : Option (Slot V)}
  {fin : Slot V → DVal V} {pt : List Tok} {pa : Ast} {sort : Val V → Except E (Val V)}

theorem sameKinds_one {m : Bool} (u : BRed V E) : SameKinds m [u] := by
  intro i j a b ha hb _
  obtain rfl : i = 0 := by
    have := (List.getElem?_eq_some_iff.1 ha).1
    simp only [List.length_singleton] at this
    omega
  obtain rfl : j = 0 := by
    have := (List.getElem?_eq_some_iff.1 hb).1
    simp only [List.length_singleton] at this
    omega
  cases ha
  cases hb
  exact ⟨rfl, rfl⟩

theorem slotOf_one {m : Bool} (t : TRed) : (textCompile m [t]).slotOf = [0] := by
  rfl

/-- The function generated for `c.aggregate` of one built-in reducer. -/
theorem aggregate_one (L : OpsOk P ops) (hg : ∀ g ∈ gs, g ∉ "data_" :: f.args) (h : FnHead f r)
    (ha : ArgsOk (f.args ++ gs)) (hcall : CallOk P f r vals)
    (hb : BOk P condSem (f.args ++ gs) (envOf f.args vals) true 0 u)
    (ho : OutOk P ops (f.args ++ gs) (envOf f.args vals) u o dt da dflt fin (varAgg 0) (place true 0) pt pa)
    (hsort : SortOk P (f.args ++ gs) (envOf f.args vals) r.sort sort) :
    ∃ b, Source (aggCode { f with result := o.text (varAgg 0) } [u.text]) b ∧ ∀ rows,
      callDef P f.name (.data rows :: vals) b = lift (andThen
        (andThen (aggregate condSem [u.red P ops true 0] rows) (fun vs => outOf (@Fn.reducer V E P.beq ops u.f) dflt fin (vs.headD none)))
        sort) := by
  have hcode := out_code ho.default ⟨(place_code true 0).lx, (place_code true 0).pr.rd⟩ ho.post
  have hr := h.reads hcode
  exact aggregate_builtin (us := [u]) (f := { f with result := o.text (varAgg 0) })
    (r := { r with
      resultT := outToks dt (placeToks true 0) pt
      result := .expr (outTree da (place true 0) pa) })
    (res := fun vs => outOf (@Fn.reducer V E P.beq ops u.f) dflt fin (vs.headD none)) L hg hr ha
    ⟨hcall.length, hcall.none_, hcall.iter⟩ (sameKinds_one u)
    (by
      intro i v hv
      obtain rfl : i = 0 := by
        have := (List.getElem?_eq_some_iff.1 hv).1
        simp only [List.length_singleton] at this
        omega
      cases hv
      exact hb)
    (by simp) rfl
    (by
      intro st vs hc hs
      obtain ⟨hlen, hat⟩ := hs
      match vs, hlen with
      | [x], _ =>
        obtain ⟨h1, p, h2, h3, h4⟩ := hat 0 0 u x rfl (by rw [List.map_singleton, slotOf_one]; rfl) rfl
        refine outOk_yields ho hc (p := p) ?_ h1 h4
        have := varAgg_const 0
        simp only [place, ev, St.look, this, Bool.false_eq_true, if_false, h2])
    hsort

/-- The code of the result of `group_by`, given the code of an item (1120-1124). -/
def groupResult (e : String) : String := "[" ++ e ++ " for signature_, agg_data_ in signature_to_agg_data_.items()]"

/-- `signature_to_agg_data_.items()`. -/
def groupItems : Ast := .call (.attr (.name "signature_to_agg_data_") "items") [] []

/-- Its tokens. -/
def groupItemsToks : List Tok := [.name "signature_to_agg_data_", .dot, .name "items", .lpar, .rpar]

theorem pr_groupItems : Pr groupItemsToks groupItems :=
  by simpa [sepBy, groupItemsToks, groupItems] using pr_call' (pr_dot (ts := [.name "signature_to_agg_data_"]) (s := "items") (pr_name _) (by decide +kernel)) AllRd.nil

theorem Pc.w_lbr : Piece "[" [.lbr] := by decide +kernel

theorem lx_groupResult {e : String} {et : List Tok} (h : Lx e.toList et) :
    Lx (groupResult e).toList (pairToks et "signature_" "agg_data_" groupItemsToks) := by
  intro cs _ _
  have hp : Piece " for signature_, agg_data_ in signature_to_agg_data_.items()]"
      (.for_ :: .name "signature_" :: .comma :: .name "agg_data_" :: .in_ :: (groupItemsToks ++ [.rbr])) := by decide +kernel
  have e1 : (groupResult e).toList ++ cs = "[".toList ++ (e.toList ++
      (" for signature_, agg_data_ in signature_to_agg_data_.items()]".toList ++ cs)) := by
    simp [groupResult, String.toList_append]
  rw [e1, Pc.w_lbr.lex, h.before _ hp]
  cases lexFrom .start cs <;> simp [pairToks]

theorem FnHead.readsPairs {f : FnText} {r : FnSrc} (h : FnHead f r) {s : String} {ts : List Tok} {a : Ast}
    (hs : Code s.toList ts a) :
    FnReads { f with result := groupResult s }
      { r with
        resultT := pairToks ts "signature_" "agg_data_" groupItemsToks
        result := .pairs a "signature_" "agg_data_" groupItems } :=
  ⟨h.name, h.args, h.nodup, h.noneL, h.noneE, lx_groupResult hs.lx,
    ⟨by decide +kernel, by decide +kernel, _, _, rfl, hs.rd, pr_groupItems.rd⟩, h.sort⟩

/-- The functions generated for `group_by` and one built-in reducer. -/
theorem group_one (L : OpsOk P ops) {cls signature : String} {sigT : List Tok} {sigA : Ast} (h : FnHead f r)
    (hcn : isName cls = true) (hsl : Lx signature.toList sigT) (hsr : Rd sigT sigA)
    (hg : ∀ g ∈ gs, g ∉ "data_" :: f.args) (ha : ArgsOkG (f.args ++ gs)) (haA : ArgsOk (f.args ++ gs))
    (hcall : CallOkG P f r cls 1 vals)
    {keyOf : V → Except E (PVal V)} (hk : KeyOk P (f.args ++ gs) (envOf f.args vals) sigA keyOf)
    (hb : BOk P condSem (f.args ++ gs) (envOf f.args vals) false 0 u)
    (ho : OutOk P ops (f.args ++ gs) (envOf f.args vals) u o dt da dflt fin (varGroup 0) (place false 0) pt pa)
    (hsort : SortOk P (f.args ++ gs) (envOf f.args vals) r.sort sort) :
    Source (containerCode [u.text]) [.class_ "AggData" (classBody 1)] ∧
    ∃ b, Source (groupCode { f with result := groupResult (o.text (varGroup 0)) } cls signature [u.text]) b ∧ ∀ rows,
      callDef P f.name (.data rows :: vals) b =
      lift (andThen (andThen (@groupBy _ _ _ _ ⟨P.keyEq⟩ condSem keyOf [u.red P ops false 0] rows)
        (fun d => (mapAll (fun g => outOf (@Fn.reducer V E P.beq ops u.f) dflt fin (g.2.headD none)) d).map P.newList)) sort) := by
  have hcode := out_code ho.default ⟨(place_code false 0).lx, (place_code false 0).pr.rd⟩ ho.post
  have hr := h.readsPairs hcode
  exact group_builtin (us := [u]) (f := { f with result := groupResult (o.text (varGroup 0)) })
    (r := { r with
      resultT := pairToks (outToks dt (placeToks false 0) pt) "signature_" "agg_data_" groupItemsToks
      result := .pairs (outTree da (place false 0) pa) "signature_" "agg_data_" groupItems })
    (res := fun _ vs => outOf (@Fn.reducer V E P.beq ops u.f) dflt fin (vs.headD none)) L hr hcn hsl hsr hg ha haA
    ⟨hcall.length, hcall.none_, hcall.defaultdict, hcall.cls⟩ hk (sameKinds_one u)
    (by
      intro i v hv
      obtain rfl : i = 0 := by
        have := (List.getElem?_eq_some_iff.1 hv).1
        simp only [List.length_singleton] at this
        omega
      cases hv
      exact hb)
    (by simp) rfl
    (by
      intro st k vs hc _ hs
      obtain ⟨hlen, hat⟩ := hs
      match vs, hlen with
      | [x], _ =>
        obtain ⟨h1, p, h2, h3, h4⟩ := hat 0 0 u x rfl (by rw [List.map_singleton, slotOf_one]; rfl) rfl
        exact outOk_yields ho hc (p := p) h2 h1 h4)
    hsort

end

end Verif.Stmt
