import Verif.Stmt.TemplateKeys

/-!
# Stmt: execution of the first statements of the reducers which accumulate a `defaultdict`

Nothing here is code of the repository.
-/

set_option autoImplicit false

namespace Verif.Stmt

open Verif.Text Verif.Agg Verif.Reducers

variable {V E : Type}

section
variable {P : Py V E} {ops : Ops V E} {m : Bool} {j : Nat} {p : PVal V} {st : St V}

/-- The state in which the variable of a reduce and `_d` hold a new `defaultdict`. -/
def fresh (m : Bool) (j : Nat) (fac : String) (st : St V) : St V :=
  ((put m j (.ref st.heap.length) st).set "_d" (.ref st.heap.length)).onHeap (st.heap ++ [.dict [] (some fac)])

/-- `r = _d = defaultdict(factory)`. -/
theorem exec_fresh (hh : Held m j p st) {fac : String} (hd : st.look P "defaultdict" = some (.builtin "defaultdict"))
    (hf : st.look P fac = some (.builtin fac)) {b : Stmt} :
    execAll P [.assign [place m j, .name "_d"] (.call (.name "defaultdict") [.name fac] []), b] st =
      exec P b (fresh m j fac st) := by
  have e1 : ev P (.call (.name "defaultdict") [.name fac] []) st =
      .ok (.ref st.heap.length, st.onHeap (st.heap ++ [.dict [] (some fac)])) := by
    have e0 : ev P (.name fac) st = .ok (.builtin fac, st) := by simp only [ev, hf]
    rw [ev]
    simp only [hd, e0, if_true]
    rfl
  have e2 : exec P (.assign [place m j, .name "_d"] (.call (.name "defaultdict") [.name fac] [])) st =
      .ok (fresh m j fac st, .next) := by
    simp only [exec, e1, storeAll, store_place (hh.onHeap _)]
    simp only [store, put_onHeap, set_onHeap]
    rfl
  rw [execAll, e2]
  exact execAll_one P b _

theorem fresh_ref (m : Bool) (j : Nat) (fac : String) (st : St V) :
    IsRef P (.name "_d") st.heap.length (fresh m j fac st) := isRef_d (by simp [fresh, St.onHeap, St.set])

theorem fresh_at (m : Bool) (j : Nat) (fac : String) (st : St V) :
    (fresh m j fac st).heap[st.heap.length]? = some (.dict [] (some fac)) := by simp [fresh, St.onHeap]

theorem outcome_fresh {f : Fn} {b : List Stmt} {c : Box V} {s : Slot V} {fac : String} (hh : Held m j p st)
    (ht : tagOf s = f.tag) (he : enc P ops f.factory s = .box c)
    (h : execAll P b st = .ok ((fresh m j fac st).onHeap ((fresh m j fac st).heap.set st.heap.length c), .next)) :
    Outcome P ops f m j b st p (.ok (some s)) := by
  refine outcome_newd (h2 := (fresh m j fac st).heap.set st.heap.length c) hh ?_ ?_ ht he h
  · rw [List.getElem?_set_self]
    simp [fresh, St.onHeap]
  · intro i hi
    rw [List.getElem?_set_ne (by omega)]
    simp only [fresh, onHeap_heap]
    rw [List.getElem?_append_left hi]

end

section
variable {P : Py V E} {ops : Ops V E} (L : OpsOk P ops) {m : Bool} {j : Nat} {p : PVal V} {st : St V}
  {xa ya : Ast} {x y : Except E V} {s : Option (Slot V)} (hh : Held m j p st)
  (hdd : st.look P "defaultdict" = some (.builtin "defaultdict"))
include L hh hdd

theorem dictArray_first (hf : st.look P "list" = some (.builtin "list"))
    (hx : Says P (fresh m j "list" st) xa x) (hy : Says P (fresh m j "list" st) ya y) :
    Outcome P ops .dictArray m j (Fn.dictArray.firstWith (place m j) xa ya) st p
      ((@Fn.reducer V E P.beq ops .dictArray).first s x y) := by
  letI := P.beq
  have e1 := exec_itemAppend (d := []) L (fresh_ref m j "list" st) hx hy (fresh_at m j "list" st)
  simp only [Fn.reducer, Reducers.dictArray, Fn.firstWith]
  cases hb : both x y with
  | error e =>
    apply outcome_err
    rw [exec_fresh hh hdd hf, e1, hb]
    rfl
  | ok q =>
    refine outcome_fresh (fac := "list") hh rfl rfl ?_
    rw [exec_fresh hh hdd hf, e1, hb]
    rfl

theorem dictArrayDistinct_first (hf : st.look P "dict" = some (.builtin "dict"))
    (hx : Says P (fresh m j "dict" st) xa x) (hy : Says P (fresh m j "dict" st) ya y) :
    Outcome P ops .dictArrayDistinct m j (Fn.dictArrayDistinct.firstWith (place m j) xa ya) st p
      ((@Fn.reducer V E P.beq ops .dictArrayDistinct).first s x y) := by
  letI := P.beq
  have e1 := exec_itemKey (d := []) L (fresh_ref m j "dict" st) hx hy (fresh_at m j "dict" st)
  simp only [Fn.reducer, Reducers.dictArrayDistinct, Fn.firstWith]
  cases hb : both x y with
  | error e =>
    apply outcome_err
    rw [exec_fresh hh hdd hf, e1, hb]
    rfl
  | ok q =>
    refine outcome_fresh (fac := "dict") hh rfl rfl ?_
    rw [exec_fresh hh hdd hf, e1, hb]
    rfl

theorem dictSum_first (hf : st.look P "int" = some (.builtin "int"))
    (hx : Says P (fresh m j "int" st) xa x) (hy : Says P (fresh m j "int" st) ya y) :
    Outcome P ops .dictSum m j (Fn.dictSum.firstWith (place m j) xa ya) st p
      ((@Fn.reducer V E P.beq ops .dictSum).first s x y) := by
  letI := P.beq
  have e1 := exec_addAt (d := []) L (fresh_ref m j "int" st) hx (ev_orZero L hy) (fresh_at m j "int" st)
  simp only [Fn.reducer, Reducers.dictSum, Fn.firstWith]
  have hb : both x (y.map ops.orZero) = (both x y).map (fun q => (q.1, ops.orZero q.2)) := by
    cases x <;> cases y <;> rfl
  rw [hb] at e1
  cases hb : both x y with
  | error e =>
    apply outcome_err
    rw [exec_fresh hh hdd hf, e1, hb]
    rfl
  | ok q =>
    rw [hb] at e1
    simp only [addAt]
    simp only [Except.map] at e1
    cases ha : ops.add ((Dict.get? ([] : List (V × V)) q.1).getD ops.zero) (ops.orZero q.2) with
    | error e =>
      rw [ha] at e1
      apply outcome_err
      rw [exec_fresh hh hdd hf, e1]
      rfl
    | ok w =>
      rw [ha] at e1
      refine outcome_fresh (fac := "int") hh rfl rfl ?_
      rw [exec_fresh hh hdd hf, e1]
      rfl

theorem dictSumOrNone_first (hf : st.look P "int" = some (.builtin "int"))
    (hx : Says P (fresh m j "int" st) xa x) (hy : Says P (fresh m j "int" st) ya y) :
    Outcome P ops .dictSumOrNone m j (Fn.dictSumOrNone.firstWith (place m j) xa ya) st p
      ((@Fn.reducer V E P.beq ops .dictSumOrNone).first s x y) := by
  letI := P.beq
  have e1 := exec_setItem (fresh_ref m j "int" st) hx hy (fresh_at m j "int" st)
  simp only [Fn.reducer, Reducers.dictSumOrNone, Fn.firstWith]
  cases hb : bothRev x y with
  | error e =>
    apply outcome_err
    rw [exec_fresh hh hdd hf, e1, hb]
    rfl
  | ok q =>
    refine outcome_fresh (fac := "int") hh rfl rfl ?_
    rw [exec_fresh hh hdd hf, e1, hb]
    rfl

end

end Verif.Stmt
