import Verif.Stmt.TemplateDicts

/-!
# Stmt: execution of the statements of the reducers which test keys, and of the first statements of `defaultdict`s

Nothing here is code of the repository.
-/

set_option autoImplicit false

namespace Verif.Stmt

open Verif.Text Verif.Agg Verif.Reducers

variable {V E : Type}

section
variable {P : Py V E} {ops : Ops V E} (L : OpsOk P ops) {m : Bool} {j : Nat} {p : PVal V} {st : St V}
  {xa ya : Ast} {x y : Except E V} {s : Option (Slot V)}
  (hh : Held m j p st) (hx : Says P st xa x)

/-- `x not in r`. -/
theorem ev_notIn {r : Ast} {i : Nat} {k : V} (hr : IsRef P r i st) (hx : Says P st xa (.ok k)) {d : List (V × Leaf V)}
    {fac : Option String} (hi : st.heap[i]? = some (.dict d fac)) :
    ev P (.cmp xa [.notIn] [r]) st = .ok (P.ofBool !(@Dict.get? _ _ P.beq d k).isSome, st) := by
  have := hr.ev st.heap
  rw [onHeap_self] at this
  rw [ev_cmp hx.ok0 this]
  simp only [cmpVal, cmpKnown, hasKey, hi]
  rfl

include L in
theorem ev_notIn_bad {r : Ast} {k : V} (hr : IsBad P r st) (hx : Says P st xa (.ok k)) :
    ev P (.cmp xa [.notIn] [r]) st = .error (some ops.typeError) := by
  have := hr.ev st.heap
  rw [onHeap_self] at this
  rw [ev_cmp hx.ok0 this]
  simp only [cmpVal, cmpKnown, hasKey, L.notInS]
  rfl

include L hh hx

theorem dictExtreme_reduce {f : Fn} {o : Cmp} {cmp : V → V → Except E Bool} (hf : f.tag = .dict)
    (hk : ∀ h x y, cmpKnown P h o x y = none) (hc : ∀ a b, P.compare o (.user a) (.user b) = (cmp a b).map P.ofBool)
    (hv : Valid st.heap p) (hy : Says P st ya y) (hs : ∀ x, s = some x → tagOf x = f.tag)
    (hd : dec st.heap p = s.map (enc P ops f.factory)) :
    Outcome P ops f m j
      [.ite (.bool true [.cmp ya [.isNot] [none_],
        .bool false [.cmp xa [.notIn] [place m j], .cmp ya [o] [.sub (place m j) xa]]])
      [.assign [.sub (place m j) xa] ya] []] st p
      ((@dictExtreme V E P.beq ops cmp).reduce s s x y) := by
  letI := P.beq
  cases y with
  | error e =>
    apply outcome_err
    simp only [execAll_one, exec_ite_err (ev_bool_left (ev_cmp_left hy.err0))]
  | ok v =>
    simp only [dictExtreme]
    have e1 := fun b : Ast => ev_bool (b := b) (i := true) (ev_notNone L hy.ok0)
    cases hn : ops.isNone v with
    | true =>
      apply outcome_keep hh hv hs hd
      rw [execAll_one]
      rw [exec_ite_bool (t := false)]
      · simp only [Bool.false_eq_true, if_false, execAll]
      · rw [e1]
        simp [noneP, hn]
    | false =>
      simp only [noneP, hn, Bool.not_false, if_true] at e1
      simp only [Bool.false_eq_true, if_false]
      cases x with
      | error e =>
        apply outcome_err
        rw [execAll_one]
        apply exec_ite_err
        rw [e1, ev_bool_left (ev_cmp_left hx.err0)]
      | ok k =>
        rcases slot_cases hs hd with ⟨rfl, rfl⟩ | ⟨t, rfl, ht, hc'⟩
        · apply outcome_err
          rw [execAll_one]
          apply exec_ite_err
          rw [e1, ev_bool_left (ev_notIn_bad L hh.isBad hx)]
        · rw [hf] at ht
          cases t <;> simp only [tagOf, reduceCtorEq] at ht
          rename_i d
          obtain ⟨i, rfl, hi⟩ := hc' _ rfl
          have e2 := fun b : Ast => ev_bool (b := b) (i := false) (ev_notIn hh.isRef hx hi)
          have hset := exec_setItem hh.isRef hx hy hi
          have hgo : (ev P (.bool true [.cmp ya [.isNot] [none_],
                .bool false [.cmp xa [.notIn] [place m j], .cmp ya [o] [.sub (place m j) xa]]]) st = .ok (P.ofBool true, st)) →
              Outcome P ops f m j
                [.ite (.bool true [.cmp ya [.isNot] [none_],
                  .bool false [.cmp xa [.notIn] [place m j], .cmp ya [o] [.sub (place m j) xa]]])
                [.assign [.sub (place m j) xa] ya] []] st (.ref i) (.ok (some (.dict (Dict.set d k v)))) := by
            intro h
            refine outcome_set hh hi hf.symm rfl ?_
            rw [execAll_one, exec_ite_bool h, ← Dict.set_map]
            simp only [if_true, execAll_one, hset]
            rfl
          simp only [both]
          cases hg : @Dict.get? _ _ P.beq d k with
          | none =>
            apply hgo
            rw [e1, e2, Dict.get?_map, hg]
            rfl
          | some w =>
            have hg' : Dict.get? (d.map (fun p => (p.1, Leaf.val p.2))) k = some (.val w) := by
              rw [Dict.get?_map, hg]
              rfl
            have e3 := (ev_sub (h := st.heap) hh.isRef hx (by rw [onHeap_self]; exact touch_some hi hg')).2 w rfl
            rw [onHeap_self] at e3
            have e4 : ev P (.bool true [.cmp ya [.isNot] [none_],
                .bool false [.cmp xa [.notIn] [place m j], .cmp ya [o] [.sub (place m j) xa]]]) st =
                (lift (P.compare o (.user v) (.user w))).map (fun v => (v, st)) := by
              rw [e1, e2, hg', ev_cmp hy.ok0 e3]
              simp only [cmpVal, hk, Option.isSome_some, Bool.not_true, if_true]
            simp only
            rw [hc] at e4
            cases ha : cmp v w with
            | error e =>
              apply outcome_err
              rw [execAll_one]
              apply exec_ite_err
              rw [e4, ha]
              rfl
            | ok t =>
              rw [ha] at e4
              cases t with
              | true => exact hgo e4
              | false =>
                apply outcome_keep hh hv hs hd
                rw [execAll_one, exec_ite_bool (t := false) e4]
                simp only [Bool.false_eq_true, if_false, execAll]

theorem dictExtreme_first {f : Fn} {cmp : V → V → Except E Bool} (hf : f.tag = .dict) (hg : f.factory = none)
    (hv : Valid st.heap p) (hy : Says P st ya y) (hs : ∀ x, s = some x → tagOf x = f.tag)
    (hd : dec st.heap p = s.map (enc P ops f.factory)) (ht : P.tracked (.display .dict [xa, ya]) = true) :
    Outcome P ops f m j [.ite (.cmp ya [.isNot] [none_]) [.assign [place m j] (.display .dict [xa, ya])] []] st p
      ((@dictExtreme V E P.beq ops cmp).first s x y) := by
  letI := P.beq
  cases y with
  | error e =>
    apply outcome_err
    simp only [execAll_one, exec_ite_err (ev_cmp_left hy.err0)]
  | ok v =>
    simp only [dictExtreme]
    have e1 := ev_notNone L hy.ok0
    have e2 := ev_dict hx hy ht
    cases hn : ops.isNone v with
    | true =>
      apply outcome_keep hh hv hs hd
      rw [execAll_one, exec_ite_bool e1]
      simp [noneP, hn, execAll]
    | false =>
      have e3 : execAll P [.ite (.cmp ya [.isNot] [none_]) [.assign [place m j] (.display .dict [xa, ya])] []] st =
          execAll P [.assign [place m j] (.display .dict [xa, ya])] st := by
        rw [execAll_one, exec_ite_bool e1]
        simp [noneP, hn]
      simp only [Bool.false_eq_true, if_false]
      cases x with
      | error e =>
        apply outcome_err
        rw [e3, execAll_one]
        exact exec_assign_err e2
      | ok k =>
        have := outcome_alloc (ops := ops) (s := .dict [(k, v)]) (f := f) hh hf.symm (by rw [hg]; rfl) e2
        refine ⟨this.1, ?_⟩
        have h2 := this.2
        unfold Does at h2 ⊢
        rw [e3]
        exact h2

theorem dictCount_reduce (hs : ∀ x, s = some x → tagOf x = Fn.dictCount.tag)
    (hd : dec st.heap p = s.map (enc P ops Fn.dictCount.factory)) :
    Outcome P ops .dictCount m j (Fn.dictCount.reduceWith (place m j) (place m j) xa ya) st p
      ((@Fn.reducer V E P.beq ops .dictCount).reduce s s x y) := by
  letI := P.beq
  simp only [Fn.reducer, Reducers.dictCount, Fn.reduceWith]
  cases x with
  | error e =>
    apply outcome_err
    simp only [execAll_one, exec_ite_err (ev_cmp_left hx.err0)]
  | ok k =>
    rcases slot_cases hs hd with ⟨rfl, rfl⟩ | ⟨t, rfl, ht, hc⟩
    · apply outcome_err
      simp only [execAll_one, exec_ite_err (ev_notIn_bad L hh.isBad hx)]
    · cases t <;> simp only [tagOf, reduceCtorEq, Fn.tag] at ht
      rename_i d
      obtain ⟨i, rfl, hi⟩ := hc _ rfl
      have e1 := ev_notIn hh.isRef hx hi
      rw [Dict.get?_map (fun n => Leaf.val (P.num n))] at e1
      simp only [both]
      cases hg : @Dict.get? _ _ P.beq d k with
      | none =>
        rw [hg] at e1
        refine outcome_set hh hi rfl rfl ?_
        rw [execAll_one, exec_ite_bool e1]
        simp only [Option.map_none, Option.isSome_none, Bool.not_false, if_true, execAll_one]
        rw [exec_setItem hh.isRef hx (says_num P st 1) hi, ← Dict.set_map (fun n => Leaf.val (P.num n))]
        rfl
      | some n =>
        rw [hg] at e1
        refine outcome_set hh hi rfl rfl ?_
        rw [execAll_one, exec_ite_bool e1]
        have hg' : Dict.get? (d.map (fun p => (p.1, Leaf.val (P.num p.2)))) k = some (.val (P.num n)) := by
          rw [Dict.get?_map (fun n => Leaf.val (P.num n)), hg]
          rfl
        simp only [Option.map_some, Option.isSome_some, Bool.not_true, Bool.false_eq_true, if_false, execAll_one]
        rw [exec_augItem (h := st.heap) L hh.isRef hx (by rw [onHeap_self]; exact touch_some hi hg') hi (says_num P st 1),
          L.inc, ← Dict.set_map (fun n => Leaf.val (P.num n))]
        rfl

theorem dictCount_first (ht : P.tracked (.display .dict [xa, .num 1]) = true) :
    Outcome P ops .dictCount m j (Fn.dictCount.firstWith (place m j) xa ya) st p
      ((@Fn.reducer V E P.beq ops .dictCount).first s x y) := by
  have := ev_dict hx (says_num P st 1) ht
  simp only [Fn.reducer, Reducers.dictCount, Fn.firstWith]
  cases x with
  | error e =>
    apply outcome_err
    rw [execAll_one]
    exact exec_assign_err this
  | ok q =>
    refine outcome_alloc hh ?_ ?_ this <;> rfl

omit L hh hx in
/-- `r[x] = {y}`. -/
theorem exec_setItemSet {r : Ast} {i : Nat} (hr : IsRef P r i st) (hx : Says P st xa x) (hy : Says P st ya y)
    {d : List (V × Leaf V)} {f : Option String} (hi : st.heap[i]? = some (.dict d f))
    (ht : P.tracked (.display .set [ya]) = true) :
    exec P (.assign [.sub r xa] (.display .set [ya])) st =
      (lift (bothRev x y)).map (fun q => (st.onHeap (((st.heap ++ [Box.set [q.2]]).set st.heap.length .gone).set i
        (.dict (@Dict.set _ _ P.beq d q.1 (.set [q.2])) f)), .next)) := by
  have hl := (List.getElem?_eq_some_iff.1 hi).1
  simp only [exec, ev_set hy ht]
  cases y with
  | error e => cases x <;> rfl
  | ok w =>
    simp only [lift, Except.map, storeAll, store, hr.spot]
    cases x with
    | error e => simp only [hx.err]; rfl
    | ok k =>
      have h1 : (st.heap ++ [Box.set [w]])[st.heap.length]? = some (.set [w]) := by simp
      have h2 : ((st.heap ++ [Box.set [w]]).set st.heap.length .gone)[i]? = some (.dict d f) := by
        rw [List.getElem?_set_ne (by omega), List.getElem?_append_left hl, hi]
      simp only [hx.ok, St.leaf, onHeap_heap, h1, St.setAt, h2]
      rfl

omit hh hx in
/-- `r[x].add(y)` where the dict has the key. -/
theorem exec_itemAdd {r : Ast} {i : Nat} {k : V} {l : List V} (hr : IsRef P r i st) (hx : Says P st xa (.ok k))
    (hy : Says P st ya y) {d : List (V × Leaf V)} {f : Option String} (hi : st.heap[i]? = some (.dict d f))
    (hg : @Dict.get? _ _ P.beq d k = some (.set l)) :
    exec P (.expr (.call (.attr (.sub r xa) "add") [ya] [])) st =
      (lift y).map (fun v => (st.onHeap (st.heap.set i
        (.dict (@Dict.set _ _ P.beq d k (.set (P.insert l v))) f)), .next)) := by
  have h1 := (ev_sub (h := st.heap) hr hx (by rw [onHeap_self]; exact touch_some hi hg)).1
  rw [onHeap_self] at h1
  simp only [exec, methodOf, or_true, if_true, h1]
  cases y with
  | error e => simp only [hy.err0]; rfl
  | ok v =>
    simp only [hy.ok0, St.method, hi, hg, if_true]
    rfl

theorem dictCountDistinct_reduce (hy : Says P st ya y) (hs : ∀ x, s = some x → tagOf x = Fn.dictCountDistinct.tag)
    (hd : dec st.heap p = s.map (enc P ops Fn.dictCountDistinct.factory))
    (htr : P.tracked (.display .set [ya]) = true) :
    Outcome P ops .dictCountDistinct m j (Fn.dictCountDistinct.reduceWith (place m j) (place m j) xa ya) st p
      ((@Fn.reducer V E P.beq ops .dictCountDistinct).reduce s s x y) := by
  letI := P.beq
  simp only [Fn.reducer, Reducers.dictCountDistinct, Fn.reduceWith]
  rcases slot_cases hs hd with ⟨rfl, rfl⟩ | ⟨t, rfl, ht, hc⟩
  · cases x with
    | error e =>
      apply outcome_err
      simp only [execAll_one, exec_ite_err (ev_cmp_left hx.err0)]
    | ok k =>
      apply outcome_err
      simp only [execAll_one, exec_ite_err (ev_notIn_bad L hh.isBad hx)]
  · cases t <;> simp only [tagOf, reduceCtorEq, Fn.tag] at ht
    rename_i d
    obtain ⟨i, rfl, hi⟩ := hc _ rfl
    have hl := (List.getElem?_eq_some_iff.1 hi).1
    cases x with
    | error e =>
      have : both (.error e) y = (.error e : Except E (V × V)) := by cases y <;> rfl
      rw [this]
      apply outcome_err
      simp only [execAll_one, exec_ite_err (ev_cmp_left hx.err0)]
    | ok k =>
      have e1 := ev_notIn hh.isRef hx hi
      rw [Dict.get?_map (keysLeaf ops Fn.dictCountDistinct.factory)] at e1
      simp only [both]
      cases hg : @Dict.get? _ _ P.beq d k with
      | none =>
        rw [hg] at e1
        have e2 := exec_setItemSet hh.isRef hx hy hi htr
        have e3 : ∀ b, execAll P [.ite (.cmp xa [.notIn] [place m j]) [.assign [.sub (place m j) xa] (.display .set [ya])] b] st =
            exec P (.assign [.sub (place m j) xa] (.display .set [ya])) st := by
          intro b
          rw [execAll_one, exec_ite_bool e1]
          simp only [Option.map_none, Option.isSome_none, Bool.not_false, if_true, execAll_one]
        cases y with
        | error e =>
          apply outcome_err
          rw [e3, e2]
          rfl
        | ok v =>
          simp only [both, hg]
          refine outcome_mut hh hl ?_ ?_ ?_ (s := .dictKeys (Dict.set d k [v])) rfl rfl
            (h2 := (((st.heap ++ [Box.set [v]]).set st.heap.length .gone).set i
              (.dict ((Dict.set d k [v]).map (fun p => (p.1, keysLeaf ops Fn.dictCountDistinct.factory p.2))) none))) ?_
          · simp
          · rw [List.getElem?_set_self (by simp; omega)]
            rfl
          · intro n hn hne
            rw [List.getElem?_set_ne (Ne.symm hne), List.getElem?_set_ne (by omega), List.getElem?_append_left hn]
          · rw [e3, e2, ← Dict.set_map]
            rfl
      | some l =>
        rw [hg] at e1
        have hg' : Dict.get? (d.map (fun p => (p.1, keysLeaf ops Fn.dictCountDistinct.factory p.2))) k = some (.set l) := by
          rw [Dict.get?_map, hg]
          rfl
        have e2 := exec_itemAdd L hh.isRef hx hy hi hg'
        have e3 : ∀ b c, execAll P [.ite (.cmp xa [.notIn] [place m j]) b [c]] st = exec P c st := by
          intro b c
          rw [execAll_one, exec_ite_bool e1]
          simp only [Option.map_some, Option.isSome_some, Bool.not_true, Bool.false_eq_true, if_false, execAll_one]
        cases y with
        | error e =>
          apply outcome_err
          rw [e3, e2]
          rfl
        | ok v =>
          simp only [both, hg]
          refine outcome_set hh hi (s := .dictKeys (Dict.set d k (insertKey l v))) rfl rfl ?_
          rw [e3, e2, ← Dict.set_map]
          rfl

theorem dictCountDistinct_first (hy : Says P st ya y)
    (ht : P.tracked (.display .dict [xa, .display .set [ya]]) = true) (htr : P.tracked (.display .set [ya]) = true) :
    Outcome P ops .dictCountDistinct m j (Fn.dictCountDistinct.firstWith (place m j) xa ya) st p
      ((@Fn.reducer V E P.beq ops .dictCountDistinct).first s x y) := by
  have e1 := ev_dictSet hx hy ht htr
  simp only [Fn.reducer, Reducers.dictCountDistinct, Fn.firstWith]
  cases hb : both x y with
  | error e =>
    apply outcome_err
    rw [execAll_one]
    rw [hb] at e1
    exact exec_assign_err e1
  | ok q =>
    rw [hb] at e1
    refine outcome_new (k := st.heap.length + 1) (s := .dictKeys [(q.1, [q.2])]) hh (by omega) ?_ ?_ rfl rfl
      (h2 := ((st.heap ++ [Box.set [q.2]]).set st.heap.length .gone) ++ [.dict [(q.1, .set [q.2])] none]) ?_
    · rw [List.getElem?_append_right (by simp)]
      simp
      exact ⟨rfl, rfl⟩
    · intro i hi
      rw [List.getElem?_append_left (by simp; omega), List.getElem?_set_ne (by omega), List.getElem?_append_left hi]
    · rw [execAll_one, exec_assign (hh.onHeap _) e1, put_onHeap]

theorem dictFirst_reduce (hv : Valid st.heap p) (hy : Says P st ya y) (hs : ∀ x, s = some x → tagOf x = Fn.dictFirst.tag)
    (hd : dec st.heap p = s.map (enc P ops Fn.dictFirst.factory)) :
    Outcome P ops .dictFirst m j (Fn.dictFirst.reduceWith (place m j) (place m j) xa ya) st p
      ((@Fn.reducer V E P.beq ops .dictFirst).reduce s s x y) := by
  letI := P.beq
  simp only [Fn.reducer, Reducers.dictFirst, Fn.reduceWith]
  cases x with
  | error e =>
    apply outcome_err
    simp only [execAll_one, exec_ite_err (ev_cmp_left hx.err0)]
  | ok k =>
    rcases slot_cases hs hd with ⟨rfl, rfl⟩ | ⟨t, rfl, ht, hc⟩
    · apply outcome_err
      simp only [execAll_one, exec_ite_err (ev_notIn_bad L hh.isBad hx)]
    · cases t <;> simp only [tagOf, reduceCtorEq, Fn.tag] at ht
      rename_i d
      obtain ⟨i, rfl, hi⟩ := hc _ rfl
      have e1 := ev_notIn hh.isRef hx hi
      rw [Dict.get?_map Leaf.val] at e1
      simp only [both]
      cases hg : @Dict.get? _ _ P.beq d k with
      | none =>
        rw [hg] at e1
        have e2 := exec_setItem hh.isRef hx hy hi
        have e3 : execAll P [.ite (.cmp xa [.notIn] [place m j]) [.assign [.sub (place m j) xa] ya] []] st =
            exec P (.assign [.sub (place m j) xa] ya) st := by
          rw [execAll_one, exec_ite_bool e1]
          simp only [Option.map_none, Option.isSome_none, Bool.not_false, if_true, execAll_one]
        cases y with
        | error e =>
          apply outcome_err
          rw [e3, e2]
          rfl
        | ok v =>
          refine outcome_set hh hi rfl rfl ?_
          rw [e3, e2, ← Dict.set_map]
          rfl
      | some w =>
        rw [hg] at e1
        apply outcome_keep hh hv hs hd
        rw [execAll_one, exec_ite_bool e1]
        simp [execAll]

end

end Verif.Stmt
