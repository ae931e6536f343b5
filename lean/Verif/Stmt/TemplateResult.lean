import Verif.Stmt.TemplateTop

/-!
# Stmt: the code of the result of a reduce

Source: `/repo/src/convtools/aggregations.py` lines 916-945.
-/

set_option autoImplicit false

namespace Verif.Stmt

open Verif.Text Verif.Agg Verif.Reducers

variable {V E : Type}

/-- What is known about the result of a reduce when its code is generated: the code of `default`, if there is one, and
the code of `post_conversion` applied to the variable. -/
structure OutCode where
  default : Option String
  post : String → String

/-- `Reduce._gen_code_and_update_ctx` (916-945) with the variable `v`. -/
def OutCode.text (o : OutCode) (v : String) : String :=
  match o.default with
  | none => o.post v
  | some d => "(" ++ d ++ " if " ++ v ++ " is _none else " ++ o.post v ++ ")"

/-- Its tree, given the trees of its parts. -/
def outTree (d : Option Ast) (v p : Ast) : Ast :=
  match d with
  | none => p
  | some d => .ifexp d (.cmp v [.is] [.name "_none"]) p

/-- Its tokens. -/
def outToks (d : Option (List Tok)) (v p : List Tok) : List Tok :=
  match d with
  | none => p
  | some d => .lpar :: (d ++ .if_ :: (v ++ .is_ :: .name "_none" :: .else_ :: (p ++ [.rpar])))

/-- The condition of a conditional expression may be a comparison. -/
theorem pr_ifIs {ts us ws vs : List Tok} {a b d c : Ast} (h : Rd ts a) (h' : Rd us b) (hd : Rd ws d)
    (hn : ws.head? ≠ some .not_) (h'' : Rd vs c) :
    Pr (.lpar :: (ts ++ .if_ :: (us ++ .is_ :: (ws ++ .else_ :: (vs ++ [.rpar]))))) (.ifexp a (.cmp b [.is] [d]) c) := by
  refine pr_paren (fun rest => ?_)
  simp only [List.append_assoc, List.cons_append, List.nil_append]
  have hw : ws ≠ [] := by
    obtain ⟨t, l, rfl, _⟩ := hd.start
    simp
  have hcmp : Ev .or (us ++ .is_ :: (ws ++ .else_ :: (vs ++ .rpar :: rest)))
      (.cmp b [.is] [d], .else_ :: (vs ++ .rpar :: rest)) := by
    have h1 : Ev .arith (us ++ .is_ :: (ws ++ .else_ :: (vs ++ .rpar :: rest))) (b, .is_ :: (ws ++ .else_ :: (vs ++ .rpar :: rest))) :=
      h'.arith (by simp [strength])
    have h2 : Ev .arith (ws ++ .else_ :: (vs ++ .rpar :: rest)) (d, .else_ :: (vs ++ .rpar :: rest)) :=
      hd.arith (by simp [strength])
    have hop : cmpOp (.is_ :: (ws ++ .else_ :: (vs ++ .rpar :: rest))) = some (.is, ws ++ .else_ :: (vs ++ .rpar :: rest)) := by
      cases ws with
      | nil => exact absurd rfl hw
      | cons t us => cases t <;> first | rfl | exact absurd rfl hn
    have h3 : Ev (.cmpMore b [] []) (.is_ :: (ws ++ .else_ :: (vs ++ .rpar :: rest)))
        (.cmp b [.is] [d], .else_ :: (vs ++ .rpar :: rest)) :=
      ev2 h2 (ev_cmpMore_end (a := b) (ops := [.is]) (bs := [d]) (rest := .else_ :: (vs ++ .rpar :: rest)) (by simp [strength]))
        (fun rec r1 r2 => by simp only [parseStep, hop, r1, Option.bind_some, List.nil_append, r2]; rfl)
    have h4 : Ev .cmp (us ++ .is_ :: (ws ++ .else_ :: (vs ++ .rpar :: rest))) (.cmp b [.is] [d], .else_ :: (vs ++ .rpar :: rest)) :=
      ev2 h1 h3 (fun rec r1 r2 => by simp only [parseStep, r1, Option.bind_some, r2])
    exact ev_or (ev_and (ev_not h4 (h'.notNot _)) (by simp [strength])) (by simp [strength])
  refine ev_paren (ev3 (h.or (rest := .if_ :: (us ++ .is_ :: (ws ++ .else_ :: (vs ++ .rpar :: rest)))) (by simp [strength]))
    hcmp (h''.expr (rest := .rpar :: rest) (by simp [strength])) (fun rec e1 e2 e3 => ?_)) (h.head _ rfl)
  simp only [parseStep, e1, e2, e3, Option.bind_some, expect, if_true]

theorem Lx.before {s : List Char} {ts : List Tok} (h : Lx s ts) (r : String) {tr : List Tok} (p : Piece r tr)
    (he : endLit r = true := by decide +kernel) (cs : List Char) :
    lexFrom .start (s ++ (r.toList ++ cs)) = (lexFrom .start cs).map (ts ++ tr ++ ·) := by
  rw [h _ (endLit_ends he cs).1 (endLit_ends he cs).2, p.lex, map_append_append]

theorem Pc.w_if : Piece " if " [.if_] := by decide +kernel
theorem Pc.w_lpar : Piece "(" [.lpar] := by decide +kernel
theorem Pc.w_is : Piece " is _none else " [.is_, .name "_none", .else_] := by decide +kernel

/-- The code of the result is read as this tree. -/
theorem out_code {o : OutCode} {v : String} {dt : Option (List Tok)} {vt pt : List Tok} {da : Option Ast} {va pa : Ast}
    (hd : match o.default, dt, da with
      | none, none, none => True
      | some d, some t, some a => Code d.toList t a
      | _, _, _ => False)
    (hv : Code v.toList vt va) (hp : Code (o.post v).toList pt pa) :
    Code (o.text v).toList (outToks dt vt pt) (outTree da va pa) := by
  obtain ⟨default, post⟩ := o
  cases default with
  | none =>
    cases dt <;> cases da <;> first | exact hd.elim | exact hp
  | some d =>
    cases dt <;> cases da <;> first | exact hd.elim | skip
    rename_i t a
    refine ⟨?_, (pr_ifIs hd.rd hv.rd (pr_name "_none").rd (by simp) hp.rd).rd⟩
    intro cs h1 h2
    have e : (OutCode.text ⟨some d, post⟩ v).toList ++ cs = "(".toList ++ (d.toList ++ (" if ".toList ++
        (v.toList ++ (" is _none else ".toList ++ ((post v).toList ++ (")".toList ++ cs)))))) := by
      simp [OutCode.text, String.toList_append]
    rw [e, Pc.w_lpar.lex, hd.lx.before _ Pc.w_if, hv.lx.before _ Pc.w_is, hp.lx.before _ Pc.w_rpar]
    cases lexFrom .start cs <;> simp [outToks]

/-- What the code of the result gives: `default` if there is one and nothing has been accumulated, otherwise `post` of
what the variable holds. -/
def outVal {S : Type} (d : Option (Except E (Val V))) (post : Option S → Except E (Val V)) (x : Option S) : Except E (Val V) :=
  match d, x with
  | some d, none => d
  | _, x => post x

/-- The value of `<variable> is _none`. -/
theorem ev_isSentinel {P : Py V E} {st : St V} {va : Ast} {p : PVal V} (hn : st.loc "_none" = some .sentinel)
    (hv : ev P va st = .ok (p, st)) :
    ev P (.cmp va [.is] [.name "_none"]) st = .ok (P.ofBool (dec st.heap p).isNone, st) := by
  have hs : same P p .sentinel = some (dec st.heap p).isNone := by
    cases p with
    | ref i =>
      simp only [same, dec]
      cases st.heap[i]? <;> rfl
    | _ => rfl
  have hl : st.look P "_none" = some .sentinel := by
    have : isConstName "_none" = false := by decide
    simp only [St.look, this, Bool.false_eq_true, if_false, hn]
  simp only [ev, hv, hl, cmpVal, cmpKnown, hs, lift, Except.map]

/-- The code of `default` gives this value. -/
def DefaultOk (P : Py V E) (st : St V) (da : Option Ast) (d : Option (Except E (Val V))) : Prop :=
  match da, d with
  | none, none => True
  | some a, some w => Yields P a st w
  | _, _ => False

/-- The code of the result of a reduce gives `outVal`. -/
theorem out_yields {S : Type} {P : Py V E} {st : St V} {da : Option Ast} {va pa : Ast} {p : PVal V} {x : Option S}
    {enc : S → DVal V} {d : Option (Except E (Val V))} {post : Option S → Except E (Val V)}
    (hn : st.loc "_none" = some .sentinel) (hv : ev P va st = .ok (p, st)) (hx : dec st.heap p = x.map enc)
    (hd : DefaultOk P st da d) (hp : Yields P pa st (post x)) : Yields P (outTree da va pa) st (outVal d post x) := by
  cases da with
  | none =>
    cases d with
    | none => exact hp
    | some w => exact hd.elim
  | some a =>
    cases d with
    | none => exact hd.elim
    | some w =>
      have hc := ev_isSentinel hn hv
      rw [hx] at hc
      have ht : ∀ b, truth P (P.ofBool b) = .ok b := P.truthy_bool
      have hev : ev P (outTree (some a) va pa) st =
          if (x.map enc).isNone then ev P a st else ev P pa st := by
        simp only [outTree]
        rw [ev.eq_def]
        simp only [hc, ht]
      unfold Yields
      rw [hev]
      cases x with
      | none => exact hd
      | some s => exact hp

/-- `resultOf` of a reducer, as a value. -/
def outOf (rd : Reducer V E) (default : Option (Slot V)) (fin : Slot V → DVal V) (x : Option (Slot V)) : Except E (Val V) :=
  (resultOf rd default x).map (Option.map fin)

theorem outOf_eq {rd : Reducer V E} {default : Option (Slot V)} {fin : Slot V → DVal V} {d : Option (Except E (Val V))}
    {post : Option (Slot V) → Except E (Val V)}
    (hd : d = (default.or rd.default).map (fun s => .ok (some (fin s))))
    (hp : ∀ s, post (some s) = (rd.post s).map (fun s => some (fin s)))
    (hn : default.or rd.default = none → post none = .ok none) (x : Option (Slot V)) :
    outVal d post x = outOf rd default fin x := by
  subst hd
  cases x with
  | none =>
    cases default with
    | some s => rfl
    | none =>
      cases hr : rd.default with
      | some s => simp [outVal, outOf, resultOf, Except.map, hr]
      | none =>
        rw [hr] at hn
        simp [outVal, outOf, resultOf, Except.map, hr, hn rfl]
  | some s =>
    have : outVal ((default.or rd.default).map (fun s => (.ok (some (fin s)) : Except E (Val V)))) post (some s) = post (some s) := by
      cases default.or rd.default <;> rfl
    rw [this, hp, outOf, resultOf]
    cases rd.post s <;> rfl

end Verif.Stmt
