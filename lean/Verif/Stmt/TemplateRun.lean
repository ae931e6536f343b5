import Verif.Stmt.TemplateOps
import Verif.Stmt.TemplateBlock

/-!
# Stmt: execution of the statements of the reducers which hold values

Nothing here is code of the repository.
-/

set_option autoImplicit false

namespace Verif.Stmt

open Verif.Text Verif.Agg Verif.Reducers

variable {V E : Type}

/-- Code of the user gives a value or raises, whatever the accumulated objects are. -/
def Says (P : Py V E) (st : St V) (a : Ast) (r : Except E V) : Prop :=
  ∀ h, ev P a (st.onHeap h) = (lift r).map (fun v => (.user v, st.onHeap h))

section
variable {P : Py V E} {ops : Ops V E} {m : Bool} {j : Nat} {p : PVal V} {st : St V} {a b : Ast}

theorem Says.ok {v : V} (h : Says P st a (.ok v)) (k : List (Box V)) :
    ev P a (st.onHeap k) = .ok (.user v, st.onHeap k) := h k

theorem Says.err {e : E} (h : Says P st a (.error e)) (k : List (Box V)) :
    ev P a (st.onHeap k) = .error (some e) := h k

theorem Says.ok0 {v : V} (h : Says P st a (.ok v)) : ev P a st = .ok (.user v, st) := h st.heap

theorem Says.err0 {e : E} (h : Says P st a (.error e)) : ev P a st = .error (some e) := h st.heap

theorem Says.onHeap {r : Except E V} (h : Says P st a r) (k : List (Box V)) : Says P (st.onHeap k) a r := fun l => h l

theorem ev_none (L : OpsOk P ops) (st : St V) : ev P none_ st = .ok (.user ops.none, st) := by
  have : st.look P "None" = some (.user ops.none) := by
    simp only [St.look, L.none_]
    rfl
  simp only [ev, this]

theorem ev_cmp_left {o : Cmp} {x : Option E} (h : ev P a st = .error x) : ev P (.cmp a [o] [b]) st = .error x := by
  rw [ev.eq_4, h]

theorem ev_cmp_right {o : Cmp} {x : Option E} {v : PVal V} (h : ev P a st = .ok (v, st)) (h' : ev P b st = .error x) :
    ev P (.cmp a [o] [b]) st = .error x := by
  rw [ev.eq_4, h]
  simp only [h']

/-- `p is None`. -/
def noneP (ops : Ops V E) : PVal V → Bool
  | .user v => ops.isNone v
  | _ => false

theorem same_none (L : OpsOk P ops) (p : PVal V) :
    same P p (.user ops.none) = some (noneP ops p) := by
  cases p <;> simp [same, noneP, L.isNone, L.isNone_none]

/-- `x is None`. -/
theorem ev_isNone (L : OpsOk P ops) (h : ev P a st = .ok (p, st)) :
    ev P (.cmp a [.is] [none_]) st = .ok (P.ofBool (noneP ops p), st) := by
  rw [ev_cmp h (ev_none L st)]
  simp only [cmpVal, cmpKnown, same_none L, lift, Except.map]

/-- `x is not None`. -/
theorem ev_notNone (L : OpsOk P ops) (h : ev P a st = .ok (p, st)) :
    ev P (.cmp a [.isNot] [none_]) st = .ok (P.ofBool !(noneP ops p), st) := by
  rw [ev_cmp h (ev_none L st)]
  simp only [cmpVal, cmpKnown, same_none L, lift, Except.map, Option.map_some]

theorem ev_bool_left {i : Bool} {x : Option E} (h : ev P a st = .error x) : ev P (.bool i [a, b]) st = .error x := by
  rw [ev, h]

/-- `a and b`, `a or b` where `a` is a truth value. -/
theorem ev_bool {i t : Bool} (h : ev P a st = .ok (P.ofBool t, st)) :
    ev P (.bool i [a, b]) st = if t = i then ev P b st else .ok (P.ofBool t, st) := by
  rw [ev, h]
  simp only [truth, Py.ofBool, P.truthy_bool]

/-- `v or 0`. -/
theorem ev_orZero (L : OpsOk P ops) {r : Except E V} (h : Says P st a r) :
    Says P st (.bool false [a, .num 0]) (r.map ops.orZero) := by
  intro k
  have h := h k
  rw [ev, h]
  cases r with
  | error e => rfl
  | ok v =>
    simp only [lift, Except.map, truth, L.truthy, Ops.orZero, ev, Py.int, L.zero]
    cases ops.truthy v <;> rfl

theorem exec_assign {x : PVal V} {st' : St V} (hh : Held m j p st') (h : ev P a st = .ok (x, st')) :
    exec P (.assign [place m j] a) st = .ok (put m j x st', .next) := by
  simp only [exec, h, storeAll, store_place hh]

theorem exec_assign_err {ts : List Ast} {x : Option E} (h : ev P a st = .error x) : exec P (.assign ts a) st = .error x := by
  simp only [exec, h]

theorem exec_ite_err {x y : List Stmt} {e : Option E} (h : ev P a st = .error e) : exec P (.ite a x y) st = .error e := by
  simp only [exec, h]

theorem outcome_val {f : Fn} {s : List Stmt} {v : V} (hf : f.tag = .val) (hh : Held m j p st)
    (h : execAll P s st = .ok (put m j (.user v) st, .next)) : Outcome P ops f m j s st p (.ok (some (.val v))) := by
  refine ⟨?_, does_val hh (by simp) h⟩
  rintro s hs
  cases hs
  exact hf.symm

theorem outcome_keep {f : Fn} {b : List Stmt} {s : Option (Slot V)} (hh : Held m j p st) (hv : Valid st.heap p)
    (hs : ∀ x, s = some x → tagOf x = f.tag) (hd : dec st.heap p = s.map (enc P ops f.factory))
    (h : execAll P b st = .ok (st, .next)) : Outcome P ops f m j b st p (.ok s) := by
  refine ⟨hs, ?_⟩
  rw [← hd]
  exact does_keep hh hv h

theorem outcome_err {f : Fn} {b : List Stmt} {e : E} (h : execAll P b st = .error (some e)) :
    Outcome P ops f m j b st p (.error e) := h

end

/-- What an operand which is the variable or the code of `initial` may be. -/
def ValIs (s : Option (Slot V)) (p : PVal V) : Prop := (s = none ∧ p = .sentinel) ∨ ∃ v, s = some (.val v) ∧ p = .user v

section
variable [BEq V] {P : Py V E} {ops : Ops V E} (L : OpsOk P ops) {m : Bool} {j : Nat} {p p0 : PVal V} {st : St V}
  {xa ya a0 : Ast} {x y : Except E V} {s s0 : Option (Slot V)}
  (hh : Held m j p st) (hx : Says P st xa x)
include L hh hx

/-- What a variable which holds a value may be. -/
theorem val_cases {f : Fn} (hf : f.tag = .val) (hs : ∀ x, s = some x → tagOf x = f.tag)
    (hd : dec st.heap p = s.map (enc P ops f.factory)) :
    ValIs s p := by
  clear hh hx L
  cases s with
  | none => exact .inl ⟨rfl, dec_none hd⟩
  | some s =>
    have := hs s rfl
    rw [hf] at this
    cases s <;> simp only [tagOf, reduceCtorEq] at this
    exact .inr ⟨_, rfl, dec_user hd⟩

theorem sum_reduce (hs : ∀ x, s = some x → tagOf x = Fn.sum.tag)
    (hd : dec st.heap p = s.map (enc P ops Fn.sum.factory)) :
    Outcome P ops .sum m j (Fn.sum.reduceWith (place m j) a0 xa ya) st p ((Fn.sum.reducer ops).reduce s s0 x y) := by
  have hz := (ev_orZero L hx) st.heap
  rw [onHeap_self] at hz
  cases x with
  | error e =>
    apply outcome_err
    simp only [Fn.reduceWith, execAll_one, exec, hh.ev, hz, Except.map, lift]
  | ok v =>
    simp only [Except.map, lift] at hz
    rcases val_cases (f := .sum) L hh hx rfl hs hd with ⟨rfl, rfl⟩ | ⟨w, rfl, rfl⟩
    · apply outcome_err
      simp only [Fn.reduceWith, execAll_one, exec, hh.ev, hz, augVal, L.augS]
    · simp only [Fn.reducer, Reducers.sum]
      cases ha : ops.add w (ops.orZero v) with
      | error e =>
        apply outcome_err
        simp only [Fn.reduceWith, execAll_one, exec, hh.ev, hz, augVal, L.aug, ha, Except.map]
      | ok u =>
        apply outcome_val rfl hh
        simp only [Fn.reduceWith, execAll_one, exec, hh.ev, hz, augVal, L.aug, ha, Except.map, store_place hh]

theorem sum_first : Outcome P ops .sum m j (Fn.sum.firstWith (place m j) xa ya) st p ((Fn.sum.reducer ops).first s x y) := by
  have hz := (ev_orZero L hx)
  cases x with
  | error e =>
    apply outcome_err
    simp only [Fn.firstWith, execAll_one, exec_assign_err hz.err0]
  | ok v =>
    apply outcome_val rfl hh
    simp only [Fn.firstWith, execAll_one, exec_assign hh hz.ok0]

theorem sumOrNone_reduce (hv : Valid st.heap p) (hs : ∀ x, s = some x → tagOf x = Fn.sumOrNone.tag)
    (hd : dec st.heap p = s.map (enc P ops Fn.sumOrNone.factory)) (h0 : ev P a0 st = .ok (p0, st)) (hi : ValIs s0 p0) :
    Outcome P ops .sumOrNone m j (Fn.sumOrNone.reduceWith (place m j) a0 xa ya) st p
      ((Fn.sumOrNone.reducer ops).reduce s s0 x y) := by
  cases x with
  | error e =>
    apply outcome_err
    simp only [Fn.reduceWith, execAll_one, exec_ite_err (ev_cmp_left hx.err0)]
  | ok v =>
    simp only [Fn.reducer, Reducers.sumOrNone, Fn.reduceWith]
    cases hn : ops.isNone v with
    | true =>
      apply outcome_val rfl hh
      rw [execAll_one, exec_ite_bool (ev_isNone L hx.ok0)]
      simp only [noneP, hn, if_true, execAll_one, exec_assign hh (ev_none L st)]
    | false =>
      have e1 : ∀ b, execAll P [.ite (.cmp xa [.is] [none_]) [.assign [place m j] none_] b] st = execAll P b st := by
        intro b
        rw [execAll_one, exec_ite_bool (ev_isNone L hx.ok0)]
        simp only [noneP, hn, Bool.false_eq_true, if_false]
      simp only [Bool.false_eq_true, if_false]
      have e2 : ∀ b c, execAll P [.ite (.cmp a0 [.isNot] [none_]) b c] st = execAll P (if !(noneP ops p0) then b else c) st := by
        intro b c
        rw [execAll_one, exec_ite_bool (ev_notNone L h0)]
      rcases hi with ⟨rfl, rfl⟩ | ⟨w, rfl, rfl⟩
      · apply outcome_err
        rw [e1, e2]
        simp only [noneP, Bool.not_false, if_true, execAll_one]
        apply exec_assign_err
        simp only [ev, h0, hx.ok0, L.addS, lift, Except.map]
      · simp only [addSlot]
        cases hw : ops.isNone w with
        | true =>
          apply outcome_keep hh hv hs hd
          rw [e1, e2]
          simp only [noneP, hw, Bool.not_true, Bool.false_eq_true, if_false, execAll]
        | false =>
          simp only [Bool.false_eq_true, if_false]
          cases ha : ops.add w v with
          | error e =>
            apply outcome_err
            rw [e1, e2]
            simp only [noneP, hw, Bool.not_false, if_true, execAll_one]
            apply exec_assign_err
            simp only [ev, h0, hx.ok0, L.add, ha, lift, Except.map]
          | ok u =>
            apply outcome_val rfl hh
            rw [e1, e2]
            simp only [noneP, hw, Bool.not_false, if_true, execAll_one]
            apply exec_assign hh
            simp only [ev, h0, hx.ok0, L.add, ha, lift, Except.map]

theorem assign_first {f : Fn} (hf : f.tag = .val) :
    Outcome P ops f m j [.assign [place m j] xa] st p (x.map (fun v => some (.val v))) := by
  cases x with
  | error e =>
    apply outcome_err
    simp only [execAll_one, exec_assign_err hx.err0]
  | ok v =>
    apply outcome_val hf hh
    simp only [execAll_one, exec_assign hh hx.ok0]

/-- `if x is not None and x <cmp> a0: r = x`. -/
theorem extreme_reduce {f : Fn} {o : Cmp} {cmp : V → V → Except E Bool} (hf : f.tag = .val)
    (hk : ∀ h x y, cmpKnown P h o x y = none) (hc : ∀ a b, P.compare o (.user a) (.user b) = (cmp a b).map P.ofBool)
    (hS : ∀ a, P.compare o (.user a) .sentinel = .error ops.typeError)
    (hv : Valid st.heap p) (hs : ∀ x, s = some x → tagOf x = f.tag)
    (hd : dec st.heap p = s.map (enc P ops f.factory)) (h0 : ev P a0 st = .ok (p0, st)) (hi : ValIs s0 p0) :
    Outcome P ops f m j
      [.ite (.bool true [.cmp xa [.isNot] [none_], .cmp xa [o] [a0]]) [.assign [place m j] xa] []] st p
      ((extreme ops cmp).reduce s s0 x y) := by
  cases x with
  | error e =>
    apply outcome_err
    simp only [execAll_one, exec_ite_err (ev_bool_left (ev_cmp_left hx.err0))]
  | ok v =>
    simp only [extreme]
    have e1 := fun b : Ast => ev_bool (b := b) (i := true) (ev_notNone L hx.ok0)
    cases hn : ops.isNone v with
    | true =>
      apply outcome_keep hh hv hs hd
      rw [execAll_one]
      rw [exec_ite_bool (t := false)]
      · simp only [Bool.false_eq_true, if_false, execAll]
      · rw [e1]
        simp [noneP, hn]
    | false =>
      simp only [noneP, hn, Bool.not_false, if_true] at e1
      simp only [Bool.false_eq_true, if_false]
      have e2 : ev P (.cmp xa [o] [a0]) st = (lift (P.compare o (.user v) p0)).map (fun v => (v, st)) := by
        rw [ev_cmp hx.ok0 h0]
        simp only [cmpVal, hk]
      rcases hi with ⟨rfl, rfl⟩ | ⟨w, rfl, rfl⟩
      · apply outcome_err
        rw [execAll_one]
        apply exec_ite_err
        rw [e1, e2, hS]
        rfl
      · simp only [cmpSlot]
        cases ha : cmp v w with
        | error e =>
          apply outcome_err
          rw [execAll_one]
          apply exec_ite_err
          rw [e1, e2, hc, ha]
          rfl
        | ok t =>
          have e3 : ev P (.bool true [.cmp xa [.isNot] [none_], .cmp xa [o] [a0]]) st = .ok (P.ofBool t, st) := by
            rw [e1, e2, hc, ha]
            rfl
          cases t with
          | true =>
            apply outcome_val hf hh
            rw [execAll_one, exec_ite_bool e3]
            simp only [if_true, execAll_one, exec_assign hh hx.ok0]
          | false =>
            apply outcome_keep hh hv hs hd
            rw [execAll_one, exec_ite_bool e3]
            simp only [Bool.false_eq_true, if_false, execAll]

theorem extreme_first {f : Fn} {cmp : V → V → Except E Bool} (hf : f.tag = .val)
    (hv : Valid st.heap p) (hs : ∀ x, s = some x → tagOf x = f.tag)
    (hd : dec st.heap p = s.map (enc P ops f.factory)) :
    Outcome P ops f m j [.ite (.cmp xa [.isNot] [none_]) [.assign [place m j] xa] []] st p
      ((extreme ops cmp).first s x y) := by
  cases x with
  | error e =>
    apply outcome_err
    simp only [execAll_one, exec_ite_err (ev_cmp_left hx.err0)]
  | ok v =>
    simp only [extreme]
    have e1 : ∀ b c, execAll P [.ite (.cmp xa [.isNot] [none_]) b c] st = execAll P (if !(ops.isNone v) then b else c) st := by
      intro b c
      rw [execAll_one, exec_ite_bool (ev_notNone L hx.ok0)]
      rfl
    cases hn : ops.isNone v with
    | true =>
      apply outcome_keep hh hv hs hd
      rw [e1]
      simp only [hn, Bool.not_true, Bool.false_eq_true, if_false, execAll]
    | false =>
      apply outcome_val hf hh
      rw [e1]
      simp only [hn, Bool.not_false, if_true, execAll_one, exec_assign hh hx.ok0]

omit hx in
theorem count_reduce (hs : ∀ x, s = some x → tagOf x = Fn.count.tag)
    (hd : dec st.heap p = s.map (enc P ops Fn.count.factory)) :
    Outcome P ops .count m j (Fn.count.reduceWith (place m j) a0 xa ya) st p ((Fn.count.reducer ops).reduce s s0 x y) := by
  cases s with
  | none =>
    obtain rfl := dec_none hd
    apply outcome_err
    simp only [Fn.reduceWith, execAll_one, exec, hh.ev, ev, augVal, Py.int, L.augS]
  | some s =>
    have := hs s rfl
    cases s <;> simp only [tagOf, reduceCtorEq, Fn.tag] at this
    obtain rfl := dec_user hd
    rename_i n
    simp only [Fn.reducer, Reducers.count]
    refine ⟨by rintro s hs; cases hs; rfl, ?_⟩
    refine does_val (q := P.int (n + 1)) hh (by simp [Py.int]) ?_
    simp only [Fn.reduceWith, execAll_one, exec, hh.ev, ev, augVal, Py.int, L.aug, L.inc, Except.map, store_place hh]

omit L hx in
theorem count_first :
    Outcome P ops .count m j (Fn.count.firstWith (place m j) xa ya) st p ((Fn.count.reducer ops).first s x y) := by
  refine ⟨by rintro s hs; cases hs; rfl, ?_⟩
  refine does_val (q := P.int 1) hh (by simp [Py.int]) ?_
  rw [Fn.firstWith, execAll_one]
  apply exec_assign hh
  simp only [ev]

/-! ## Rows -/

omit [BEq V] L hh in
theorem ev_tuple (hy : Says P st ya y) (ht : P.tracked (.display .tuple [xa, ya]) = true) :
    ev P (.display .tuple [xa, ya]) st =
      (lift (both x y)).map (fun q => (.pair (.user q.1) (.user q.2), st)) := by
  rw [ev]
  simp only [ht, if_true]
  cases x with
  | error e =>
    simp only [hx.err0]
    cases y <;> rfl
  | ok v =>
    simp only [hx.ok0]
    cases y with
    | error e => simp only [hy.err0]; rfl
    | ok w => simp only [hy.ok0]; rfl

theorem outcome_row {f : Fn} {b : List Stmt} {v w : V} (hf : f.tag = .row)
    (h : execAll P b st = .ok (put m j (.pair (.user v) (.user w)) st, .next)) :
    Outcome P ops f m j b st p (.ok (some (.row v w))) := by
  clear L hx
  refine ⟨?_, does_val hh (by simp) h⟩
  rintro s hs
  cases hs
  exact hf.symm

/-- `if x is not None and r[0] <cmp> x: r = (x, y)`. -/
theorem extremeRow_reduce {f : Fn} {o : Cmp} {cmp : V → V → Except E Bool} (hf : f.tag = .row)
    (hk : ∀ h x y, cmpKnown P h o x y = none) (hc : ∀ a b, P.compare o (.user a) (.user b) = (cmp a b).map P.ofBool)
    (hv : Valid st.heap p) (hs : ∀ x, s = some x → tagOf x = f.tag)
    (hd : dec st.heap p = s.map (enc P ops f.factory)) (hy : Says P st ya y)
    (ht : P.tracked (.display .tuple [xa, ya]) = true) :
    Outcome P ops f m j
      [.ite (.bool true [.cmp xa [.isNot] [none_], .cmp (.sub (place m j) (.num 0)) [o] [xa]])
        [.assign [place m j] (.display .tuple [xa, ya])] []] st p
      ((extremeRow ops cmp).reduce s s x y) := by
  cases x with
  | error e =>
    apply outcome_err
    simp only [execAll_one, exec_ite_err (ev_bool_left (ev_cmp_left hx.err0))]
  | ok v =>
    simp only [extremeRow]
    have e1 := fun b : Ast => ev_bool (b := b) (i := true) (ev_notNone L hx.ok0)
    cases hn : ops.isNone v with
    | true =>
      apply outcome_keep hh hv hs hd
      rw [execAll_one]
      rw [exec_ite_bool (t := false)]
      · simp only [Bool.false_eq_true, if_false, execAll]
      · rw [e1]
        simp [noneP, hn]
    | false =>
      simp only [noneP, hn, Bool.not_false, if_true] at e1
      simp only [Bool.false_eq_true, if_false]
      cases s with
      | none =>
        obtain rfl := dec_none hd
        apply outcome_err
        rw [execAll_one]
        apply exec_ite_err
        rw [e1]
        apply ev_cmp_left
        rw [ev, hh.ev]
        simp only [ev, L.misuse]
      | some s =>
        have := hs s rfl
        rw [hf] at this
        cases s <;> simp only [tagOf, reduceCtorEq] at this
        rename_i u r
        obtain rfl := dec_pair hd
        simp only
        have e2 : ev P (.cmp (.sub (place m j) (.num 0)) [o] [xa]) st =
            (lift (P.compare o (.user u) (.user v))).map (fun v => (v, st)) := by
          rw [ev_cmp (x := .user u) (y := .user v) _ hx.ok0]
          · simp only [cmpVal, hk]
          · rw [ev, hh.ev]
            simp only [ev, Py.int, pairItem, P.toNat_num]
        cases ha : cmp u v with
        | error e =>
          apply outcome_err
          rw [execAll_one]
          apply exec_ite_err
          rw [e1, e2, hc, ha]
          rfl
        | ok t =>
          have e3 : ev P (.bool true [.cmp xa [.isNot] [none_], .cmp (.sub (place m j) (.num 0)) [o] [xa]]) st =
              .ok (P.ofBool t, st) := by
            rw [e1, e2, hc, ha]
            rfl
          have e4 := ev_tuple hx hy ht
          cases t with
          | true =>
            cases y with
            | error e =>
              apply outcome_err
              rw [execAll_one, exec_ite_bool e3]
              simp only [if_true, execAll_one, exec_assign_err e4]
            | ok w =>
              apply outcome_row L hh hx hf
              rw [execAll_one, exec_ite_bool e3]
              simp only [if_true, execAll_one, exec_assign hh e4]
          | false =>
            apply outcome_keep hh hv hs hd
            rw [execAll_one, exec_ite_bool e3]
            simp only [Bool.false_eq_true, if_false, execAll]

theorem extremeRow_first {f : Fn} {cmp : V → V → Except E Bool} (hf : f.tag = .row)
    (hv : Valid st.heap p) (hs : ∀ x, s = some x → tagOf x = f.tag)
    (hd : dec st.heap p = s.map (enc P ops f.factory)) (hy : Says P st ya y)
    (ht : P.tracked (.display .tuple [xa, ya]) = true) :
    Outcome P ops f m j
      [.ite (.cmp xa [.isNot] [none_]) [.assign [place m j] (.display .tuple [xa, ya])] []] st p
      ((extremeRow ops cmp).first s x y) := by
  cases x with
  | error e =>
    apply outcome_err
    simp only [execAll_one, exec_ite_err (ev_cmp_left hx.err0)]
  | ok v =>
    simp only [extremeRow]
    have e1 : ∀ b c, execAll P [.ite (.cmp xa [.isNot] [none_]) b c] st = execAll P (if !(ops.isNone v) then b else c) st := by
      intro b c
      rw [execAll_one, exec_ite_bool (ev_notNone L hx.ok0)]
      rfl
    have e4 := ev_tuple hx hy ht
    cases hn : ops.isNone v with
    | true =>
      apply outcome_keep hh hv hs hd
      rw [e1]
      simp only [hn, Bool.not_true, Bool.false_eq_true, if_false, execAll]
    | false =>
      simp only [Bool.false_eq_true, if_false]
      cases y with
      | error e =>
        apply outcome_err
        rw [e1]
        simp only [hn, Bool.not_false, if_true, execAll_one, exec_assign_err e4]
      | ok w =>
        apply outcome_row L hh hx hf
        rw [e1]
        simp only [hn, Bool.not_false, if_true, execAll_one, exec_assign hh e4]

end

end Verif.Stmt
