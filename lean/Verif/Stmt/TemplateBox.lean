import Verif.Stmt.TemplateRun

/-!
# Stmt: statements about accumulated lists, sets and dicts

Nothing here is code of the repository.
-/

set_option autoImplicit false

namespace Verif.Stmt

open Verif.Text Verif.Agg Verif.Reducers

variable {V E : Type}

/-- The expression is a variable which holds an accumulated object. -/
structure IsRef (P : Py V E) (r : Ast) (i : Nat) (st : St V) : Prop where
  ev : ∀ h, ev P r (st.onHeap h) = .ok (.ref i, st.onHeap h)
  spot : ∀ h, evSpot P r (st.onHeap h) = .ok (.whole i, st.onHeap h)

/-- The expression is a variable which holds the sentinel. -/
structure IsBad (P : Py V E) (r : Ast) (st : St V) : Prop where
  ev : ∀ h, ev P r (st.onHeap h) = .ok (.sentinel, st.onHeap h)
  spot : ∀ h, evSpot P r (st.onHeap h) = .ok (.bad, st.onHeap h)

section
variable {P : Py V E} {ops : Ops V E} {m : Bool} {j i : Nat} {p : PVal V} {st : St V} {r xa ya : Ast}
  {x y : Except E V}

theorem evSpot_place (m : Bool) (j : Nat) (st : St V) : evSpot P (place m j) st =
    match ev P (place m j) st with
    | .error x => .error x
    | .ok (.ref i, st) => .ok (.whole i, st)
    | .ok (.sentinel, st) => .ok (.bad, st)
    | .ok _ => .error none := by
  cases m <;> rfl

theorem Held.isRef (h : Held m j (.ref i) st) : IsRef P (place m j) i st where
  ev := fun k => (h.onHeap k).ev
  spot := fun k => by rw [evSpot_place, (h.onHeap k).ev]

theorem Held.isBad (h : Held m j .sentinel st) : IsBad P (place m j) st where
  ev := fun k => (h.onHeap k).ev
  spot := fun k => by rw [evSpot_place, (h.onHeap k).ev]

theorem isRef_d (h : st.loc "_d" = some (.ref i)) : IsRef P (.name "_d") i st where
  ev := fun k => ev_loc (P := P) (st := st.onHeap k) h
  spot := fun k => by
    unfold evSpot
    simp only [ev_loc (P := P) (st := st.onHeap k) h]

/-! ## New objects -/

theorem ev_list (hx : Says P st xa x) (ht : P.tracked (.display .list [xa]) = true) :
    ev P (.display .list [xa]) st =
      (lift x).map (fun v => (.ref st.heap.length, st.onHeap (st.heap ++ [.list [v]]))) := by
  rw [ev]
  simp only [ht, if_true]
  cases x with
  | error e => simp only [hx.err0]; rfl
  | ok v => simp only [hx.ok0]; rfl

theorem ev_set (hx : Says P st xa x) (ht : P.tracked (.display .set [xa]) = true) :
    ev P (.display .set [xa]) st =
      (lift x).map (fun v => (.ref st.heap.length, st.onHeap (st.heap ++ [.set [v]]))) := by
  rw [ev]
  simp only [ht, if_true]
  cases x with
  | error e => simp only [hx.err0]; rfl
  | ok v => simp only [hx.ok0]; rfl

theorem ev_dict (hx : Says P st xa x) (hy : Says P st ya y) (ht : P.tracked (.display .dict [xa, ya]) = true) :
    ev P (.display .dict [xa, ya]) st =
      (lift (both x y)).map (fun q => (.ref st.heap.length, st.onHeap (st.heap ++ [.dict [(q.1, .val q.2)] none]))) := by
  rw [ev]
  simp only [ht, if_true]
  cases x with
  | error e =>
    simp only [hx.err0]
    cases y <;> rfl
  | ok v =>
    simp only [hx.ok0]
    cases y with
    | error e => simp only [hy.err0]; rfl
    | ok w => simp only [hy.ok0, St.leaf]; rfl

theorem ev_dictSet (hx : Says P st xa x) (hy : Says P st ya y)
    (ht : P.tracked (.display .dict [xa, .display .set [ya]]) = true) (hs : P.tracked (.display .set [ya]) = true) :
    ev P (.display .dict [xa, .display .set [ya]]) st =
      (lift (both x y)).map (fun q => (.ref (st.heap.length + 1),
        st.onHeap (((st.heap ++ [Box.set [q.2]]).set st.heap.length .gone) ++ [.dict [(q.1, .set [q.2])] none]))) := by
  rw [ev]
  simp only [ht, if_true]
  cases x with
  | error e =>
    simp only [hx.err0]
    cases y <;> rfl
  | ok v =>
    simp only [hx.ok0, ev_set hy hs]
    cases y with
    | error e => rfl
    | ok w =>
      have : (st.heap ++ [Box.set [w]])[st.heap.length]? = some (.set [w]) := by simp
      simp only [lift, Except.map, St.leaf, onHeap_heap, this]
      simp [St.alloc, St.onHeap, both]

theorem outcome_new {f : Fn} {b : List Stmt} {k : Nat} {h2 : List (Box V)} {c : Box V} {s : Slot V}
    (hh : Held m j p st) (hk : st.heap.length ≤ k) (hc : h2[k]? = some c)
    (hs : ∀ i, i < st.heap.length → h2[i]? = st.heap[i]?) (ht : tagOf s = f.tag)
    (he : enc P ops f.factory s = .box c)
    (h : execAll P b st = .ok ((put m j (.ref k) st).onHeap h2, .next)) : Outcome P ops f m j b st p (.ok (some s)) := by
  refine ⟨by rintro s hs; cases hs; exact ht, ?_⟩
  rw [Option.map_some, he]
  exact does_new hh hk hc hs h

theorem outcome_newd {f : Fn} {b : List Stmt} {h2 : List (Box V)} {c : Box V} {s : Slot V} {w : PVal V}
    (hh : Held m j p st) (hc : h2[st.heap.length]? = some c)
    (hs : ∀ i, i < st.heap.length → h2[i]? = st.heap[i]?) (ht : tagOf s = f.tag)
    (he : enc P ops f.factory s = .box c)
    (h : execAll P b st = .ok (((put m j (.ref st.heap.length) st).set "_d" w).onHeap h2, .next)) :
    Outcome P ops f m j b st p (.ok (some s)) := by
  refine ⟨by rintro s hs; cases hs; exact ht, ?_⟩
  rw [Option.map_some, he]
  exact does_newd hh (Nat.le_refl _) hc hs h

/-- A new object at the end. -/
theorem outcome_alloc {f : Fn} {a : Ast} {c : Box V} {s : Slot V} (hh : Held m j p st) (ht : tagOf s = f.tag)
    (he : enc P ops f.factory s = .box c)
    (h : ev P a st = .ok (.ref st.heap.length, st.onHeap (st.heap ++ [c]))) :
    Outcome P ops f m j [.assign [place m j] a] st p (.ok (some s)) := by
  refine outcome_new (k := st.heap.length) (h2 := st.heap ++ [c]) hh (Nat.le_refl _) (by simp) ?_ ht he ?_
  · intro i hi
    rw [List.getElem?_append_left hi]
  · rw [execAll_one, exec_assign (hh.onHeap _) h, put_onHeap]

theorem outcome_mut {f : Fn} {b : List Stmt} {h2 : List (Box V)} {c : Box V} {s : Slot V} (hh : Held m j (.ref i) st)
    (hi : i < st.heap.length) (hl : st.heap.length ≤ h2.length) (hc : h2[i]? = some c)
    (hs : ∀ k, k < st.heap.length → k ≠ i → h2[k]? = st.heap[k]?) (ht : tagOf s = f.tag)
    (he : enc P ops f.factory s = .box c) (h : execAll P b st = .ok (st.onHeap h2, .next)) :
    Outcome P ops f m j b st (.ref i) (.ok (some s)) := by
  refine ⟨by rintro s hs; cases hs; exact ht, ?_⟩
  rw [Option.map_some, he]
  exact does_mut hh hi hl hc hs h

/-- The object changes. -/
theorem outcome_set {f : Fn} {b : List Stmt} {c c' : Box V} {s : Slot V} (hh : Held m j (.ref i) st)
    (hi : st.heap[i]? = some c') (ht : tagOf s = f.tag) (he : enc P ops f.factory s = .box c)
    (h : execAll P b st = .ok (st.onHeap (st.heap.set i c), .next)) :
    Outcome P ops f m j b st (.ref i) (.ok (some s)) := by
  have hl := (List.getElem?_eq_some_iff.1 hi).1
  refine outcome_mut hh hl (by simp) (by simp [hl]) ?_ ht he h
  intro k _ hk
  rw [List.getElem?_set_ne (Ne.symm hk)]

/-! ## Methods -/

theorem exec_append_bad (hr : IsBad P r st) {n : String} (hn : n = "append" ∨ n = "add") :
    exec P (.expr (.call (.attr r n) [xa] [])) st = .error (some P.misuse) := by
  have := hr.spot st.heap
  rw [onHeap_self] at this
  simp only [exec, methodOf, hn, if_true, this]

theorem exec_append (hr : IsRef P r i st) (hx : Says P st xa x) {l : List V} (hi : st.heap[i]? = some (.list l)) :
    exec P (.expr (.call (.attr r "append") [xa] [])) st =
      (lift x).map (fun v => (st.onHeap (st.heap.set i (.list (l ++ [v]))), .next)) := by
  have := hr.spot st.heap
  rw [onHeap_self] at this
  simp only [exec, methodOf, true_or, if_true, this]
  cases x with
  | error e => simp only [hx.err0]; rfl
  | ok v =>
    simp only [hx.ok0, St.method, hi, if_true]
    rfl

theorem exec_add (hr : IsRef P r i st) (hx : Says P st xa x) {l : List V} (hi : st.heap[i]? = some (.set l)) :
    exec P (.expr (.call (.attr r "add") [xa] [])) st =
      (lift x).map (fun v => (st.onHeap (st.heap.set i (.set (P.insert l v))), .next)) := by
  have := hr.spot st.heap
  rw [onHeap_self] at this
  simp only [exec, methodOf, or_true, if_true, this]
  cases x with
  | error e => simp only [hx.err0]; rfl
  | ok v =>
    simp only [hx.ok0, St.method, hi, if_true]
    rfl

/-! ## Items -/

/-- `r[x] = y`. -/
theorem exec_setItem (hr : IsRef P r i st) (hx : Says P st xa x) (hy : Says P st ya y) {d : List (V × Leaf V)}
    {f : Option String} (hi : st.heap[i]? = some (.dict d f)) :
    exec P (.assign [.sub r xa] ya) st =
      (lift (bothRev x y)).map
        (fun q => (st.onHeap (st.heap.set i (.dict (@Dict.set _ _ P.beq d q.1 (.val q.2)) f)), .next)) := by
  have hs := hr.spot st.heap
  rw [onHeap_self] at hs
  simp only [exec]
  cases y with
  | error e =>
    simp only [hy.err0]
    cases x <;> rfl
  | ok w =>
    simp only [hy.ok0, storeAll, store, hs]
    cases x with
    | error e => simp only [hx.err0]; rfl
    | ok k => simp only [hx.ok0, St.leaf, St.setAt, hi]; rfl

theorem exec_setItem_bad (hr : IsBad P r st) (hx : Says P st xa x) (hy : Says P st ya y) :
    exec P (.assign [.sub r xa] ya) st =
      match bothRev x y with
      | .ok _ => .error (some P.misuse)
      | .error e => .error (some e) := by
  have hs := hr.spot st.heap
  rw [onHeap_self] at hs
  simp only [exec]
  cases y with
  | error e =>
    simp only [hy.err0]
    cases x <;> rfl
  | ok w =>
    simp only [hy.ok0, storeAll, store, hs]
    cases x with
    | error e => simp only [hx.err0]; rfl
    | ok k => simp only [hx.ok0]; rfl

theorem touch_some {i : Nat} {k : V} {d : List (V × Leaf V)} {f : Option String} {z : Leaf V}
    (hi : st.heap[i]? = some (.dict d f)) (hg : @Dict.get? _ _ P.beq d k = some z) : st.touch P i k = some (z, st) := by
  simp only [St.touch, hi, hg]

/-- `r[k]` of a `defaultdict`. -/
theorem touch_default {i : Nat} {k : V} {d : List (V × Leaf V)} {f : String} {z : Leaf V}
    (hi : st.heap[i]? = some (.dict d (some f))) (hf : factoryLeaf P f = some z) :
    st.touch P i k = some ((@Dict.get? _ _ P.beq d k).getD z,
      st.onHeap (st.heap.set i (.dict (@Dict.set _ _ P.beq d k ((@Dict.get? _ _ P.beq d k).getD z)) (some f)))) := by
  letI := P.beq
  simp only [St.touch, hi]
  cases hg : Dict.get? d k with
  | some w =>
    have hl := List.getElem?_eq_some_iff.1 hi
    have : st.heap.set i (.dict d (some f)) = st.heap := by
      rw [← hl.2]
      exact List.set_getElem_self hl.1
    simp only [Option.getD_some, Dict.set_same d k w hg, this, onHeap_self]
  | none =>
    simp only [Option.bind_some, hf, Option.getD_none]
    rfl

/-- `r[x]`. -/
theorem ev_sub {z : Leaf V} {k : V} {h : List (Box V)} (hr : IsRef P r i st) (hx : Says P st xa (.ok k))
    (ht : st.touch P i k = some (z, st.onHeap h)) :
    evSpot P (.sub r xa) st = .ok (.entry i k, st.onHeap h) ∧
      ∀ v, z = .val v → ev P (.sub r xa) st = .ok (.user v, st.onHeap h) := by
  have hs := hr.ev st.heap
  rw [onHeap_self] at hs
  refine ⟨?_, ?_⟩
  · simp only [evSpot, hs, hx.ok0, ht]
  · rintro v rfl
    rw [ev, hs]
    simp only [hx.ok0, ht]

theorem ev_sub_err {e : E} (hr : IsRef P r i st) (hx : Says P st xa (.error e)) :
    evSpot P (.sub r xa) st = .error (some e) ∧ ev P (.sub r xa) st = .error (some e) := by
  have hs := hr.ev st.heap
  rw [onHeap_self] at hs
  refine ⟨?_, ?_⟩
  · simp only [evSpot, hs, hx.err0]
  · rw [ev, hs]
    simp only [hx.err0]

theorem ev_sub_bad (hr : IsBad P r st) (hx : Says P st xa x) :
    evSpot P (.sub r xa) st = .error (some (match x with | .ok _ => P.misuse | .error e => e)) ∧
      ev P (.sub r xa) st = .error (some (match x with | .ok _ => P.misuse | .error e => e)) := by
  have hs := hr.ev st.heap
  rw [onHeap_self] at hs
  cases x with
  | error e =>
    refine ⟨?_, ?_⟩
    · simp only [evSpot, hs, hx.err0]
    · rw [ev, hs]
      simp only [hx.err0]
  | ok v =>
    refine ⟨?_, ?_⟩
    · simp only [evSpot, hs, hx.ok0]
    · rw [ev, hs]
      simp only [hx.ok0]

end

end Verif.Stmt
