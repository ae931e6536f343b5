import Verif.Reducers.Lemmas
import Verif.Stmt.TemplateBox

/-!
# Stmt: execution of the statements of the reducers which accumulate objects

Nothing here is code of the repository.
-/

set_option autoImplicit false

namespace Verif.Stmt

open Verif.Text Verif.Agg Verif.Reducers

variable {V E : Type}

theorem says_none {P : Py V E} {ops : Ops V E} (L : OpsOk P ops) (st : St V) : Says P st none_ (.ok ops.none) :=
  fun h => ev_none L (st.onHeap h)

theorem says_num (P : Py V E) (st : St V) (n : Nat) : Says P st (.num n) (.ok (P.num n)) := fun h => by
  simp only [ev]
  rfl

section
variable {P : Py V E} {ops : Ops V E} {st : St V} {p : PVal V} {s : Option (Slot V)} {f : Fn}

/-- The variable holds the sentinel or an object. -/
theorem slot_cases (hs : ∀ x, s = some x → tagOf x = f.tag) (hd : dec st.heap p = s.map (enc P ops f.factory)) :
    (s = none ∧ p = .sentinel) ∨ ∃ t, s = some t ∧ tagOf t = f.tag ∧
      ∀ c, enc P ops f.factory t = .box c → ∃ i, p = .ref i ∧ st.heap[i]? = some c := by
  cases s with
  | none => exact .inl ⟨rfl, dec_none hd⟩
  | some t =>
    refine .inr ⟨t, rfl, hs t rfl, fun c hc => ?_⟩
    rw [Option.map_some, hc] at hd
    exact dec_box hd

end

section
variable {P : Py V E} {ops : Ops V E} (L : OpsOk P ops) {m : Bool} {j : Nat} {p : PVal V} {st : St V}
  {xa ya : Ast} {x y : Except E V} {s : Option (Slot V)}
  (hh : Held m j p st) (hx : Says P st xa x)
include L hh hx

theorem countDistinct_reduce (hs : ∀ x, s = some x → tagOf x = Fn.countDistinct.tag)
    (hd : dec st.heap p = s.map (enc P ops Fn.countDistinct.factory)) :
    Outcome P ops .countDistinct m j (Fn.countDistinct.reduceWith (place m j) (place m j) xa ya) st p
      ((@Fn.reducer V E P.beq ops .countDistinct).reduce s s x y) := by
  letI := P.beq
  rcases slot_cases hs hd with ⟨rfl, rfl⟩ | ⟨t, rfl, ht, hc⟩
  · simp only [Fn.reducer, Reducers.countDistinct]
    apply outcome_err
    simp only [Fn.reduceWith, execAll_one, exec_append_bad hh.isBad (.inr rfl), L.misuse]
  · cases t <;> simp only [tagOf, reduceCtorEq, Fn.tag] at ht
    rename_i l
    obtain ⟨i, rfl, hi⟩ := hc _ rfl
    have := exec_add hh.isRef hx hi
    simp only [Fn.reducer, Reducers.countDistinct, Fn.reduceWith]
    cases x with
    | error e =>
      apply outcome_err
      rw [execAll_one, this]
      rfl
    | ok v =>
      refine outcome_set hh hi (c := .set (P.insert l v)) rfl rfl ?_
      rw [execAll_one, this]
      rfl

theorem countDistinct_first (ht : P.tracked (.display .set [xa]) = true) :
    Outcome P ops .countDistinct m j (Fn.countDistinct.firstWith (place m j) xa ya) st p
      ((@Fn.reducer V E P.beq ops .countDistinct).first s x y) := by
  have := ev_set hx ht
  simp only [Fn.reducer, Reducers.countDistinct, Fn.firstWith]
  cases x with
  | error e =>
    apply outcome_err
    rw [execAll_one]
    exact exec_assign_err this
  | ok v => exact outcome_alloc hh rfl rfl this

theorem array_reduce (hs : ∀ x, s = some x → tagOf x = Fn.array.tag)
    (hd : dec st.heap p = s.map (enc P ops Fn.array.factory)) :
    Outcome P ops .array m j (Fn.array.reduceWith (place m j) (place m j) xa ya) st p
      ((@Fn.reducer V E P.beq ops .array).reduce s s x y) := by
  rcases slot_cases hs hd with ⟨rfl, rfl⟩ | ⟨t, rfl, ht, hc⟩
  · simp only [Fn.reducer, Reducers.array]
    apply outcome_err
    simp only [Fn.reduceWith, execAll_one, exec_append_bad hh.isBad (.inl rfl), L.misuse]
  · cases t <;> simp only [tagOf, reduceCtorEq, Fn.tag] at ht
    rename_i l
    obtain ⟨i, rfl, hi⟩ := hc _ rfl
    have := exec_append hh.isRef hx hi
    simp only [Fn.reducer, Reducers.array, Fn.reduceWith]
    cases x with
    | error e =>
      apply outcome_err
      rw [execAll_one, this]
      rfl
    | ok v =>
      refine outcome_set hh hi (c := .list (l ++ [v])) rfl rfl ?_
      rw [execAll_one, this]
      rfl

theorem array_first (ht : P.tracked (.display .list [xa]) = true) :
    Outcome P ops .array m j (Fn.array.firstWith (place m j) xa ya) st p
      ((@Fn.reducer V E P.beq ops .array).first s x y) := by
  have := ev_list hx ht
  simp only [Fn.reducer, Reducers.array, Fn.firstWith]
  cases x with
  | error e =>
    apply outcome_err
    rw [execAll_one]
    exact exec_assign_err this
  | ok v => exact outcome_alloc hh rfl rfl this

theorem arrayDistinct_reduce (hs : ∀ x, s = some x → tagOf x = Fn.arrayDistinct.tag)
    (hd : dec st.heap p = s.map (enc P ops Fn.arrayDistinct.factory)) :
    Outcome P ops .arrayDistinct m j (Fn.arrayDistinct.reduceWith (place m j) (place m j) xa ya) st p
      ((@Fn.reducer V E P.beq ops .arrayDistinct).reduce s s x y) := by
  letI := P.beq
  rcases slot_cases hs hd with ⟨rfl, rfl⟩ | ⟨t, rfl, ht, hc⟩
  · have := exec_setItem_bad hh.isBad hx (says_none L st)
    simp only [Fn.reducer, Reducers.arrayDistinct]
    cases x with
    | error e =>
      apply outcome_err
      simp only [Fn.reduceWith, execAll_one]
      exact this
    | ok v =>
      apply outcome_err
      simp only [Fn.reduceWith, execAll_one, this, L.misuse, bothRev]
  · cases t <;> simp only [tagOf, reduceCtorEq, Fn.tag] at ht
    rename_i l
    obtain ⟨i, rfl, hi⟩ := hc _ rfl
    have := exec_setItem hh.isRef hx (says_none L st) hi
    simp only [Fn.reducer, Reducers.arrayDistinct, Fn.reduceWith]
    cases x with
    | error e =>
      apply outcome_err
      rw [execAll_one, this]
      rfl
    | ok v =>
      refine outcome_set hh hi rfl rfl ?_
      rw [execAll_one, this, ← Dict.set_map]
      rfl

theorem arrayDistinct_first (ht : P.tracked (.display .dict [xa, none_]) = true) :
    Outcome P ops .arrayDistinct m j (Fn.arrayDistinct.firstWith (place m j) xa ya) st p
      ((@Fn.reducer V E P.beq ops .arrayDistinct).first s x y) := by
  have := ev_dict hx (says_none L st) ht
  simp only [Fn.reducer, Reducers.arrayDistinct, Fn.firstWith]
  cases x with
  | error e =>
    apply outcome_err
    rw [execAll_one]
    exact exec_assign_err this
  | ok v => exact outcome_alloc hh rfl rfl this

/-- `r[x] = y`. -/
theorem setItem_reduce {f : Fn} (hf : f.tag = .dict) (hy : Says P st ya y) (hs : ∀ x, s = some x → tagOf x = f.tag)
    (hd : dec st.heap p = s.map (enc P ops f.factory)) :
    Outcome P ops f m j [.assign [.sub (place m j) xa] ya] st p ((@Reducers.dictLast V E P.beq ops).reduce s s x y) := by
  letI := P.beq
  rcases slot_cases hs hd with ⟨rfl, rfl⟩ | ⟨t, rfl, ht, hc⟩
  · have := exec_setItem_bad hh.isBad hx hy
    simp only [Reducers.dictLast]
    cases hb : bothRev x y with
    | error e =>
      apply outcome_err
      rw [execAll_one, this, hb]
    | ok v =>
      apply outcome_err
      rw [execAll_one, this, hb, L.misuse]
  · rw [hf] at ht
    cases t <;> simp only [tagOf, reduceCtorEq] at ht
    rename_i d
    obtain ⟨i, rfl, hi⟩ := hc _ rfl
    have := exec_setItem hh.isRef hx hy hi
    simp only [Reducers.dictLast]
    cases hb : bothRev x y with
    | error e =>
      apply outcome_err
      rw [execAll_one, this, hb]
      rfl
    | ok q =>
      refine outcome_set hh hi hf.symm rfl ?_
      rw [execAll_one, this, hb, ← Dict.set_map]
      rfl

theorem dict_first {f : Fn} (hf : f.tag = .dict) (hg : f.factory = none) (hy : Says P st ya y)
    (ht : P.tracked (.display .dict [xa, ya]) = true) :
    Outcome P ops f m j [.assign [place m j] (.display .dict [xa, ya])] st p
      ((@Reducers.dictLast V E P.beq ops).first s x y) := by
  have := ev_dict hx hy ht
  simp only [Reducers.dictLast]
  cases hb : both x y with
  | error e =>
    apply outcome_err
    rw [execAll_one]
    rw [hb] at this
    exact exec_assign_err this
  | ok q =>
    rw [hb] at this
    refine outcome_alloc hh hf.symm ?_ this
    rw [hg]
    rfl

/-! ## Dicts of lists, and of dicts -/

omit hh hx in
theorem beq_refl (k : V) : (@BEq.beq V P.beq k k) = true := L.refl k

omit hh hx in
/-- `r[x].append(y)` of a `defaultdict(list)`. -/
theorem exec_itemAppend {r : Ast} {i : Nat} (hr : IsRef P r i st) (hx : Says P st xa x) (hy : Says P st ya y) {d : List (V × List V)}
    (hi : st.heap[i]? = some (.dict (d.map (fun p => (p.1, .list p.2))) (some "list"))) :
    exec P (.expr (.call (.attr (.sub r xa) "append") [ya] [])) st =
      (lift (both x y)).map (fun q => (st.onHeap (st.heap.set i (.dict
        ((@Dict.set _ _ P.beq d q.1 ((@Dict.get? _ _ P.beq d q.1).getD [] ++ [q.2])).map (fun p => (p.1, .list p.2)))
        (some "list"))), .next)) := by
  letI := P.beq
  have hl := (List.getElem?_eq_some_iff.1 hi).1
  simp only [exec, methodOf, true_or, if_true]
  cases x with
  | error e =>
    simp only [(ev_sub_err hr hx).1]
    cases y <;> rfl
  | ok k =>
    have ht := touch_default (P := P) (k := k) hi (z := .list []) rfl
    simp only [(ev_sub hr hx ht).1]
    have hg : (Dict.get? (d.map (fun p => (p.1, Leaf.list p.2))) k).getD (.list []) = .list ((Dict.get? d k).getD []) := by
      rw [Dict.get?_map]
      cases Dict.get? d k <;> rfl
    cases y with
    | error e =>
      simp only [hy.err]
      rfl
    | ok v =>
      have h2 : (st.heap.set i (Box.dict (Dict.set (d.map (fun p => (p.1, Leaf.list p.2))) k
          (.list ((Dict.get? d k).getD []))) (some "list")))[i]? = some (.dict (Dict.set (d.map (fun p => (p.1, Leaf.list p.2))) k
          (.list ((Dict.get? d k).getD []))) (some "list")) := by simp [hl]
      have h3 := Dict.get?_set_self (beq_refl L) (d.map (fun p => (p.1, Leaf.list p.2))) k (.list ((Dict.get? d k).getD []))
      have h4 := Dict.set_set (beq_refl L) (d.map (fun p => (p.1, Leaf.list p.2))) k (.list ((Dict.get? d k).getD []))
        (.list ((Dict.get? d k).getD [] ++ [v]))
      have h5 := Dict.set_map (Leaf.list (V := V)) d k ((Dict.get? d k).getD [] ++ [v])
      rw [hg]
      simp only [hy.ok, St.method, onHeap_heap, h2, h3, if_true, both, lift, Except.map, List.set_set, h4, h5]
      rfl

theorem dictArray_reduce (hy : Says P st ya y) (hs : ∀ x, s = some x → tagOf x = Fn.dictArray.tag)
    (hd : dec st.heap p = s.map (enc P ops Fn.dictArray.factory)) :
    Outcome P ops .dictArray m j (Fn.dictArray.reduceWith (place m j) (place m j) xa ya) st p
      ((@Fn.reducer V E P.beq ops .dictArray).reduce s s x y) := by
  letI := P.beq
  rcases slot_cases hs hd with ⟨rfl, rfl⟩ | ⟨t, rfl, ht, hc⟩
  · have := (ev_sub_bad hh.isBad hx).1
    simp only [Fn.reducer, Reducers.dictArray, noDict, Fn.reduceWith]
    cases x with
    | error e =>
      apply outcome_err
      simp only [execAll_one, exec, methodOf, true_or, if_true, this]
    | ok v =>
      apply outcome_err
      simp only [execAll_one, exec, methodOf, true_or, if_true, this, L.misuse]
  · cases t <;> simp only [tagOf, reduceCtorEq, Fn.tag] at ht
    rename_i d
    obtain ⟨i, rfl, hi⟩ := hc _ rfl
    have := exec_itemAppend L hh.isRef hx hy hi
    simp only [Fn.reducer, Reducers.dictArray, Fn.reduceWith]
    cases hb : both x y with
    | error e =>
      apply outcome_err
      rw [execAll_one, this, hb]
      rfl
    | ok q =>
      refine outcome_set hh hi rfl rfl ?_
      rw [execAll_one, this, hb]
      rfl

omit hh hx in
/-- `r[x][y] = None` of a `defaultdict(dict)`. -/
theorem exec_itemKey {r : Ast} {i : Nat} (hr : IsRef P r i st) (hx : Says P st xa x) (hy : Says P st ya y) {d : List (V × List V)}
    (hi : st.heap[i]? = some (.dict (d.map (fun p => (p.1, keysLeaf ops (some "dict") p.2))) (some "dict"))) :
    exec P (.assign [.sub (.sub r xa) ya] none_) st =
      (lift (both x y)).map (fun q => (st.onHeap (st.heap.set i (.dict
        ((@Dict.set _ _ P.beq d q.1 (@insertKey _ P.beq ((@Dict.get? _ _ P.beq d q.1).getD []) q.2)).map
          (fun p => (p.1, keysLeaf ops (some "dict") p.2)))
        (some "dict"))), .next)) := by
  letI := P.beq
  have hl := (List.getElem?_eq_some_iff.1 hi).1
  simp only [exec, ev_none L, storeAll, store]
  cases x with
  | error e =>
    simp only [(ev_sub_err hr hx).1]
    cases y <;> rfl
  | ok k =>
    have ht := touch_default (P := P) (k := k) hi (z := .dict []) rfl
    simp only [(ev_sub hr hx ht).1]
    have hg : (Dict.get? (d.map (fun p => (p.1, keysLeaf ops (some "dict") p.2))) k).getD (.dict []) =
        keysLeaf ops (some "dict") ((Dict.get? d k).getD []) := by
      rw [Dict.get?_map]
      cases Dict.get? d k <;> rfl
    cases y with
    | error e =>
      simp only [hy.err]
      rfl
    | ok v =>
      have h2 : (st.heap.set i (Box.dict (Dict.set (d.map (fun p => (p.1, keysLeaf ops (some "dict") p.2))) k
          (keysLeaf ops (some "dict") ((Dict.get? d k).getD []))) (some "dict")))[i]? =
          some (.dict (Dict.set (d.map (fun p => (p.1, keysLeaf ops (some "dict") p.2))) k
          (keysLeaf ops (some "dict") ((Dict.get? d k).getD []))) (some "dict")) := by simp [hl]
      have h3 := Dict.get?_set_self (beq_refl L) (d.map (fun p => (p.1, keysLeaf ops (some "dict") p.2))) k
        (keysLeaf ops (some "dict") ((Dict.get? d k).getD []))
      have h4 := Dict.set_set (beq_refl L) (d.map (fun p => (p.1, keysLeaf ops (some "dict") p.2))) k
        (keysLeaf ops (some "dict") ((Dict.get? d k).getD []))
        (keysLeaf ops (some "dict") (insertKey ((Dict.get? d k).getD []) v))
      have h5 := Dict.set_map (keysLeaf ops (some "dict")) d k (insertKey ((Dict.get? d k).getD []) v)
      have h6 : ∀ l : List V, keysLeaf ops (some "dict") l = .dict (l.map (fun k => (k, ops.none))) := fun l => rfl
      rw [hg]
      simp only [hy.ok, St.leaf, St.setAt, onHeap_heap, h2, h3]
      simp only [h6] at h4 h5
      simp only [h6, set_keys, both, lift, Except.map, List.set_set, h4, h5]
      rfl

theorem dictArrayDistinct_reduce (hy : Says P st ya y) (hs : ∀ x, s = some x → tagOf x = Fn.dictArrayDistinct.tag)
    (hd : dec st.heap p = s.map (enc P ops Fn.dictArrayDistinct.factory)) :
    Outcome P ops .dictArrayDistinct m j (Fn.dictArrayDistinct.reduceWith (place m j) (place m j) xa ya) st p
      ((@Fn.reducer V E P.beq ops .dictArrayDistinct).reduce s s x y) := by
  letI := P.beq
  rcases slot_cases hs hd with ⟨rfl, rfl⟩ | ⟨t, rfl, ht, hc⟩
  · have := (ev_sub_bad hh.isBad hx).1
    simp only [Fn.reducer, Reducers.dictArrayDistinct, noDict, Fn.reduceWith]
    cases x with
    | error e =>
      apply outcome_err
      simp only [execAll_one, exec, ev_none L, storeAll, store, this]
    | ok v =>
      apply outcome_err
      simp only [execAll_one, exec, ev_none L, storeAll, store, this, L.misuse]
  · cases t <;> simp only [tagOf, reduceCtorEq, Fn.tag] at ht
    rename_i d
    obtain ⟨i, rfl, hi⟩ := hc _ rfl
    have := exec_itemKey L hh.isRef hx hy hi
    simp only [Fn.reducer, Reducers.dictArrayDistinct, Fn.reduceWith]
    cases hb : both x y with
    | error e =>
      apply outcome_err
      rw [execAll_one, this, hb]
      rfl
    | ok q =>
      refine outcome_set hh hi rfl rfl ?_
      rw [execAll_one, this, hb]
      rfl

/-! ## Dicts of values -/

omit hh hx in
/-- `r[x] += e`. -/
theorem exec_augItem {r ea : Ast} {i : Nat} {k w u : V} {h : List (Box V)} {d : List (V × Leaf V)} {fac : Option String}
    (hr : IsRef P r i st) (hx : Says P st xa (.ok k)) (ht : st.touch P i k = some (.val w, st.onHeap h))
    (hi : h[i]? = some (.dict d fac)) (he : Says P st ea (.ok u)) :
    exec P (.aug .add (.sub r xa) ea) st =
      (lift (ops.add w u)).map (fun z => (st.onHeap (h.set i (.dict (@Dict.set _ _ P.beq d k (.val z)) fac)), .next)) := by
  have e1 := (ev_sub hr hx ht).2 w rfl
  simp only [exec, e1, he.ok, augVal, L.aug]
  cases ops.add w u with
  | error e => rfl
  | ok z =>
    simp only [Except.map, store, hr.spot, hx.ok, St.leaf, St.setAt, onHeap_heap, hi]
    rfl

omit L hh hx in
theorem exec_augItem_err {r ea : Ast} {i : Nat} {k w : V} {e : E} {h : List (Box V)}
    (hr : IsRef P r i st) (hx : Says P st xa (.ok k)) (ht : st.touch P i k = some (.val w, st.onHeap h))
    (he : Says P st ea (.error e)) : exec P (.aug .add (.sub r xa) ea) st = .error (some e) := by
  have e1 := (ev_sub hr hx ht).2 w rfl
  simp only [exec, e1, he.err]

omit hh hx in
/-- `r[x] += e` of a `defaultdict(int)`. -/
theorem exec_addAt {r ea : Ast} {i : Nat} {z : Except E V} (hr : IsRef P r i st) (hx : Says P st xa x)
    (he : Says P st ea z) {d : List (V × V)}
    (hi : st.heap[i]? = some (.dict (d.map (fun p => (p.1, .val p.2))) (some "int"))) :
    exec P (.aug .add (.sub r xa) ea) st =
      match both x z with
      | .error e => .error (some e)
      | .ok (k, u) =>
        (lift (ops.add ((@Dict.get? _ _ P.beq d k).getD ops.zero) u)).map (fun w => (st.onHeap (st.heap.set i (.dict
          ((@Dict.set _ _ P.beq d k w).map (fun p => (p.1, .val p.2))) (some "int"))), .next)) := by
  letI := P.beq
  have hl := (List.getElem?_eq_some_iff.1 hi).1
  cases x with
  | error e =>
    have : both (.error e) z = (.error e : Except E (V × V)) := by cases z <;> rfl
    simp only [exec, (ev_sub_err hr hx).2, this]
  | ok k =>
    have ht := touch_default (P := P) (k := k) hi (z := .val (P.num 0)) rfl
    have hg : (Dict.get? (d.map (fun p => (p.1, Leaf.val p.2))) k).getD (.val (P.num 0)) =
        .val ((Dict.get? d k).getD ops.zero) := by
      rw [Dict.get?_map, L.zero]
      cases Dict.get? d k <;> rfl
    rw [hg] at ht
    cases z with
    | error e => rw [exec_augItem_err hr hx ht he]; rfl
    | ok u =>
      rw [exec_augItem L hr hx ht (by simp [hl]; exact ⟨rfl, rfl⟩) he]
      simp only [both, List.set_set, Dict.set_set (beq_refl L), Dict.set_map]

theorem outcome_addAt {f : Fn} {b : List Stmt} {i : Nat} {c : Box V} {k u : V} {d : List (V × V)} (hf : f.tag = .dict)
    (hp : p = .ref i) (hi : st.heap[i]? = some c)
    (h : execAll P b st =
      (lift (ops.add ((@Dict.get? _ _ P.beq d k).getD ops.zero) u)).map (fun w => (st.onHeap (st.heap.set i (.dict
          ((@Dict.set _ _ P.beq d k w).map (fun p => (p.1, .val p.2))) f.factory)), .next))) :
    Outcome P ops f m j b st p (@addAt V E P.beq ops d k u) := by
  clear hx
  subst hp
  simp only [addAt]
  cases ha : ops.add ((@Dict.get? _ _ P.beq d k).getD ops.zero) u with
  | error e =>
    apply outcome_err
    rw [h, ha]
    rfl
  | ok w =>
    refine outcome_set hh hi hf.symm rfl ?_
    rw [h, ha]
    rfl

theorem dictSum_reduce (hy : Says P st ya y) (hs : ∀ x, s = some x → tagOf x = Fn.dictSum.tag)
    (hd : dec st.heap p = s.map (enc P ops Fn.dictSum.factory)) :
    Outcome P ops .dictSum m j (Fn.dictSum.reduceWith (place m j) (place m j) xa ya) st p
      ((@Fn.reducer V E P.beq ops .dictSum).reduce s s x y) := by
  letI := P.beq
  rcases slot_cases hs hd with ⟨rfl, rfl⟩ | ⟨t, rfl, ht, hc⟩
  · have := (ev_sub_bad hh.isBad hx).2
    simp only [Fn.reducer, Reducers.dictSum, noDict, Fn.reduceWith]
    cases x with
    | error e =>
      apply outcome_err
      simp only [execAll_one, exec, this]
    | ok v =>
      apply outcome_err
      simp only [execAll_one, exec, this, L.misuse]
  · cases t <;> simp only [tagOf, reduceCtorEq, Fn.tag] at ht
    rename_i d
    obtain ⟨i, rfl, hi⟩ := hc _ rfl
    have := exec_addAt L hh.isRef hx (ev_orZero L hy) hi
    simp only [Fn.reducer, Reducers.dictSum, Fn.reduceWith]
    have hb : both x (y.map ops.orZero) = (both x y).map (fun q => (q.1, ops.orZero q.2)) := by
      cases x <;> cases y <;> rfl
    rw [hb] at this
    cases hb : both x y with
    | error e =>
      apply outcome_err
      rw [execAll_one, this, hb]
      rfl
    | ok q =>
      rw [hb] at this
      refine outcome_addAt L hh hx rfl rfl hi ?_
      rw [execAll_one, this]
      rfl

theorem dictSumOrNone_reduce (hv : Valid st.heap p) (hy : Says P st ya y)
    (hs : ∀ x, s = some x → tagOf x = Fn.dictSumOrNone.tag)
    (hd : dec st.heap p = s.map (enc P ops Fn.dictSumOrNone.factory)) :
    Outcome P ops .dictSumOrNone m j (Fn.dictSumOrNone.reduceWith (place m j) (place m j) xa ya) st p
      ((@Fn.reducer V E P.beq ops .dictSumOrNone).reduce s s x y) := by
  letI := P.beq
  simp only [Fn.reducer, Reducers.dictSumOrNone, Fn.reduceWith]
  cases y with
  | error e =>
    have hb : bothRev x (.error e) = (.error e : Except E (V × V)) := by cases x <;> rfl
    rw [hb]
    apply outcome_err
    simp only [execAll_one, exec_ite_err (ev_cmp_left hy.err0)]
  | ok v =>
    have e1 : ∀ b c, execAll P [.ite (.cmp ya [.is] [none_]) b c] st = execAll P (if ops.isNone v then b else c) st := by
      intro b c
      rw [execAll_one, exec_ite_bool (ev_isNone L hy.ok0)]
      rfl
    rcases slot_cases hs hd with ⟨rfl, rfl⟩ | ⟨t, rfl, ht, hc⟩
    · cases x with
      | error e =>
        apply outcome_err
        rw [e1]
        split
        · rw [execAll_one, exec_setItem_bad hh.isBad hx (says_none L st)]
          rfl
        · rw [execAll_one, exec_ite_err (ev_cmp_left (ev_sub_bad hh.isBad hx).2)]
      | ok k =>
        apply outcome_err
        rw [e1]
        split
        · rw [execAll_one, exec_setItem_bad hh.isBad hx (says_none L st), ← L.misuse]
          rfl
        · rw [execAll_one, exec_ite_err (ev_cmp_left (ev_sub_bad hh.isBad hx).2), L.misuse]
    · cases t <;> simp only [tagOf, reduceCtorEq, Fn.tag] at ht
      rename_i d
      obtain ⟨i, rfl, hi⟩ := hc _ rfl
      have hl := (List.getElem?_eq_some_iff.1 hi).1
      have hset := exec_setItem hh.isRef hx (says_none L st) hi
      cases x with
      | error e =>
        apply outcome_err
        rw [e1]
        split
        · rw [execAll_one, hset]
          rfl
        · rw [execAll_one, exec_ite_err (ev_cmp_left (ev_sub_err hh.isRef hx).2)]
      | ok k =>
        simp only [bothRev]
        cases hn : ops.isNone v with
        | true =>
          refine outcome_set hh hi rfl rfl ?_
          rw [e1, hn, ← Dict.set_map]
          simp only [if_true, execAll_one, hset]
          rfl
        | false =>
          simp only [Bool.false_eq_true, if_false]
          have ht := touch_default (P := P) (k := k) hi (z := .val (P.num 0)) rfl
          have hg : (Dict.get? (d.map (fun p => (p.1, Leaf.val p.2))) k).getD (.val (P.num 0)) =
              .val ((Dict.get? d k).getD ops.zero) := by
            rw [Dict.get?_map, L.zero]
            cases Dict.get? d k <;> rfl
          rw [hg, Dict.set_map] at ht
          have e2 := (ev_sub hh.isRef hx ht).2 _ rfl
          have e3 : ev P (.cmp (.sub (place m j) xa) [.isNot] [none_]) st =
              .ok (P.ofBool !(ops.isNone ((Dict.get? d k).getD ops.zero)),
                st.onHeap (st.heap.set i (.dict ((Dict.set d k ((Dict.get? d k).getD ops.zero)).map
                  (fun p => (p.1, Leaf.val p.2))) (some "int")))) := by
            rw [ev, e2]
            simp only [ev_none L, cmpVal, cmpKnown, same_none L, noneP, Option.map_some, lift, Except.map]
          cases hz : ops.isNone ((Dict.get? d k).getD ops.zero) with
          | true =>
            have hg : Dict.get? d k = some ((Dict.get? d k).getD ops.zero) := by
              cases h0 : Dict.get? d k with
              | some w => rfl
              | none => rw [h0, Option.getD_none, L.isNone_zero] at hz; cases hz
            have hsame : st.heap.set i (.dict ((Dict.set d k ((Dict.get? d k).getD ops.zero)).map
                  (fun p => (p.1, Leaf.val p.2))) (some "int")) = st.heap := by
              rw [Dict.set_same d k _ hg]
              obtain ⟨h1, h2⟩ := List.getElem?_eq_some_iff.1 hi
              have h3 := List.set_getElem_self h1
              rw [h2] at h3
              exact h3
            rw [hsame] at e3
            simp only [if_true]
            apply outcome_keep hh hv hs hd
            rw [e1, hn]
            simp only [Bool.false_eq_true, if_false, execAll_one]
            rw [onHeap_self] at e3
            rw [exec_ite_bool e3, hz]
            rfl
          | false =>
            simp only [Bool.false_eq_true, if_false]
            refine outcome_addAt L hh hx rfl rfl hi ?_
            rw [e1, hn]
            simp only [Bool.false_eq_true, if_false, execAll_one]
            have hi2 : (st.heap.set i (.dict ((Dict.set d k ((Dict.get? d k).getD ops.zero)).map
                  (fun p => (p.1, Leaf.val p.2))) (some "int")))[i]? = some (.dict ((Dict.set d k ((Dict.get? d k).getD ops.zero)).map
                  (fun p => (p.1, Leaf.val p.2))) (some "int")) := by simp [hl]
            have := exec_addAt (st := st.onHeap _) L (hh.onHeap _).isRef (hx.onHeap _) (hy.onHeap _) hi2
            simp only [both, Dict.get?_set_self (beq_refl L), Option.getD_some, Dict.set_set (beq_refl L), onHeap_heap,
              List.set_set, onHeap_onHeap] at this
            simp only [exec, e3, truth, Py.ofBool, P.truthy_bool, hz, Bool.not_false, execAll_one]
            exact this

end

end Verif.Stmt
