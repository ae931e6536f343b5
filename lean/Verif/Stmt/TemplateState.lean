import Verif.Stmt.AggRun
import Verif.Stmt.AggBlocks

/-!
# Stmt: states in the execution of the statements of a reducer

Nothing here is code of the repository.
-/

set_option autoImplicit false

namespace Verif.Stmt

open Verif.Text Verif.Agg

variable {V E : Type}

/-- The state with other accumulated objects. -/
def St.onHeap (st : St V) (h : List (Box V)) : St V := { st with heap := h }

theorem onHeap_self (st : St V) : st.onHeap st.heap = st := rfl

theorem onHeap_heap (st : St V) (h : List (Box V)) : (st.onHeap h).heap = h := rfl

theorem onHeap_loc (st : St V) (h : List (Box V)) : (st.onHeap h).loc = st.loc := rfl

theorem onHeap_onHeap (st : St V) (h k : List (Box V)) : (st.onHeap h).onHeap k = st.onHeap k := rfl

theorem set_onHeap (st : St V) (h : List (Box V)) (x : String) (v : PVal V) :
    (st.onHeap h).set x v = (st.set x v).onHeap h := rfl

theorem Ctx.of_loc {args : List String} {env : String → Option (PVal V)} {a b : St V} (h : Ctx args env a)
    (hl : ∀ x, x = "_none" ∨ x ∈ args → b.loc x = a.loc x) : Ctx args env b :=
  ⟨(hl _ (.inl rfl)).trans h.none_, fun x hx => (hl _ (.inr hx)).trans (h.args x hx)⟩

/-- The state after an assignment to the variable of a reduce. -/
def put : Bool → Nat → PVal V → St V → St V
  | true, j, p, st => st.set (varAgg j) p
  | false, j, p, st =>
    match st.loc "agg_data_" with
    | some (.obj i) =>
      match st.objs[i]? with
      | some o => { st with objs := st.objs.set i (fun x => if x = attrName j then some p else o x) }
      | none => st
    | _ => st

section
variable {P : Py V E} {m : Bool} {j : Nat} {p q : PVal V} {st : St V}

theorem store_place (h : Held m j q st) (p : PVal V) : store P p (place m j) st = .ok (put m j p st) := by
  cases m with
  | true => rfl
  | false =>
    obtain ⟨i, o, h1, h2, h3⟩ := h
    simp only [place, store, ev_loc h1, h2, h3, put, h1]

theorem put_onHeap (m : Bool) (j : Nat) (p : PVal V) (st : St V) (h : List (Box V)) :
    put m j p (st.onHeap h) = (put m j p st).onHeap h := by
  cases m with
  | true => rfl
  | false =>
    simp only [put, St.onHeap]
    cases st.loc "agg_data_" with
    | none => rfl
    | some v =>
      cases v with
      | obj i => simp only; cases st.objs[i]? <;> rfl
      | _ => rfl

theorem put_heap (m : Bool) (j : Nat) (p : PVal V) (st : St V) : (put m j p st).heap = st.heap := by
  have := put_onHeap m j p st st.heap
  rw [onHeap_self] at this
  rw [this]
  rfl

theorem put_loc (m : Bool) (j : Nat) (p : PVal V) (st : St V) {x : String} (hx : x ≠ varAgg j) :
    (put m j p st).loc x = st.loc x := by
  cases m with
  | true => simp [put, St.set, hx]
  | false =>
    simp only [put]
    cases st.loc "agg_data_" with
    | none => rfl
    | some v =>
      cases v with
      | obj i => simp only; cases st.objs[i]? <;> rfl
      | _ => rfl

theorem Held.put (h : Held m j q st) (p : PVal V) : Held m j p (put m j p st) := by
  cases m with
  | true => simp [Held, Stmt.put, St.set]
  | false =>
    obtain ⟨i, o, h1, h2, h3⟩ := h
    have hi := (List.getElem?_eq_some_iff.1 h2).1
    refine ⟨i, fun x => if x = attrName j then some p else o x, ?_, ?_, by simp⟩
    · simp only [Stmt.put, h1, h2]
    · simp only [Stmt.put, h1, h2]
      simp [hi]

theorem put_same (h : Held m j p st) : put m j p st = st := by
  cases m with
  | true =>
    have e : (fun y => if y = varAgg j then some p else st.loc y) = st.loc := by
      funext y
      split
      · next hy => rw [hy]; exact h.symm
      · rfl
    simp only [put, St.set, e]
  | false =>
    obtain ⟨i, o, h1, h2, h3⟩ := h
    have e : (fun x => if x = attrName j then some p else o x) = o := by
      funext y
      split
      · next hy => rw [hy]; exact h3.symm
      · rfl
    have hi := List.getElem?_eq_some_iff.1 h2
    have e2 : st.objs.set i o = st.objs := by
      rw [← hi.2]
      exact List.set_getElem_self hi.1
    simp only [put, h1, h2, e, e2]

theorem Held.onHeap (h : Held m j p st) (k : List (Box V)) : Held m j p (st.onHeap k) := by
  cases m with
  | true => exact h
  | false => exact h

theorem Held.set (h : Held m j p st) (v : PVal V) : Held m j p (st.set "_d" v) := by
  cases m with
  | true =>
    have : varAgg j ≠ "_d" := (varAgg_ne (by decide) j).symm
    simpa [Held, St.set, this] using h
  | false =>
    obtain ⟨i, o, h1, h2, h3⟩ := h
    exact ⟨i, o, by simpa [St.set] using h1, h2, h3⟩

/-- What the statements of a reducer do, if they do not raise. -/
def Does (P : Py V E) (m : Bool) (j : Nat) (b : List Stmt) (st : St V) (p : PVal V) (v : Option (DVal V)) : Prop :=
  ∃ p' st1 st2, dec st2.heap p' = v ∧ store P p' (place m j) st = .ok st1 ∧ Near p p' st1 st2 ∧
    execAll P b st = .ok (st2, .next)

theorem Near.refl (h : Valid st.heap p) : Near p p st st where
  loc := fun _ _ => rfl
  iters := rfl
  objs := rfl
  cls := rfl
  dict := rfl
  longer := Nat.le_refl _
  heap := fun _ _ _ => rfl
  valid := h
  fresh := fun _ h => .inl h

/-- Nothing is assigned. -/
theorem does_keep {b : List Stmt} (h : Held m j p st) (hv : Valid st.heap p) (he : execAll P b st = .ok (st, .next)) :
    Does P m j b st p (dec st.heap p) :=
  ⟨p, st, st, rfl, by rw [store_place h, put_same h], .refl hv, he⟩

/-- A value is assigned which is not an accumulated object. -/
theorem does_val {b : List Stmt} (h : Held m j p st) (hq : ∀ i, q ≠ .ref i)
    (he : execAll P b st = .ok (put m j q st, .next)) : Does P m j b st p (dec st.heap q) := by
  refine ⟨q, put m j q st, put m j q st, by rw [put_heap], store_place h q, ⟨fun _ _ => rfl, rfl, rfl, rfl, rfl,
    Nat.le_refl _, fun _ _ _ => rfl, fun i hi => absurd hi (hq i), fun i hi => absurd hi (hq i)⟩, he⟩

/-- A new accumulated object is assigned. -/
theorem does_new {b : List Stmt} {k : Nat} {h2 : List (Box V)} {c : Box V} (h : Held m j p st)
    (hk : st.heap.length ≤ k) (hc : h2[k]? = some c) (hs : ∀ i, i < st.heap.length → h2[i]? = st.heap[i]?)
    (he : execAll P b st = .ok ((put m j (.ref k) st).onHeap h2, .next)) : Does P m j b st p (some (.box c)) := by
  have hl := (List.getElem?_eq_some_iff.1 hc).1
  refine ⟨.ref k, _, (put m j (.ref k) st).onHeap h2, ?_, store_place h _, ⟨fun _ _ => rfl, rfl, rfl, rfl, rfl, ?_, ?_, ?_, ?_⟩, he⟩
  · simp only [dec, onHeap_heap, hc]
  · simp only [put_heap, onHeap_heap]; omega
  · intro i hi _
    rw [put_heap] at hi ⊢
    exact hs i hi
  · intro i hi
    cases hi
    exact hl
  · intro i hi
    cases hi
    rw [put_heap]
    exact .inr hk

/-- A new accumulated object is assigned, also to `_d`. -/
theorem does_newd {b : List Stmt} {k : Nat} {h2 : List (Box V)} {c : Box V} {w : PVal V} (h : Held m j p st)
    (hk : st.heap.length ≤ k) (hc : h2[k]? = some c) (hs : ∀ i, i < st.heap.length → h2[i]? = st.heap[i]?)
    (he : execAll P b st = .ok (((put m j (.ref k) st).set "_d" w).onHeap h2, .next)) :
    Does P m j b st p (some (.box c)) := by
  have hl := (List.getElem?_eq_some_iff.1 hc).1
  refine ⟨.ref k, _, ((put m j (.ref k) st).set "_d" w).onHeap h2, ?_, store_place h _, ⟨?_, rfl, rfl, rfl, rfl, ?_, ?_, ?_, ?_⟩, he⟩
  · simp only [dec, onHeap_heap, hc]
  · intro x hx
    simp [onHeap_loc, St.set, hx]
  · simp only [put_heap, onHeap_heap]; omega
  · intro i hi _
    rw [put_heap] at hi ⊢
    exact hs i hi
  · intro i hi
    cases hi
    exact hl
  · intro i hi
    cases hi
    rw [put_heap]
    exact .inr hk

/-- The accumulated object changes. -/
theorem does_mut {b : List Stmt} {k : Nat} {h2 : List (Box V)} {c : Box V} (h : Held m j (.ref k) st)
    (hk : k < st.heap.length) (hl : st.heap.length ≤ h2.length) (hc : h2[k]? = some c)
    (hs : ∀ i, i < st.heap.length → i ≠ k → h2[i]? = st.heap[i]?)
    (he : execAll P b st = .ok (st.onHeap h2, .next)) : Does P m j b st (.ref k) (some (.box c)) := by
  refine ⟨.ref k, st, st.onHeap h2, ?_, by rw [store_place h, put_same h], ⟨fun _ _ => rfl, rfl, rfl, rfl, rfl, hl, ?_, ?_, ?_⟩, he⟩
  · simp only [dec, onHeap_heap, hc]
  · intro i hi hn
    exact hs i hi (fun e => hn (by rw [e]))
  · intro i hi
    cases hi
    exact Nat.lt_of_lt_of_le hk hl
  · intro i hi
    exact .inl hi

end

/-! ## Values -/

theorem dec_none {heap : List (Box V)} {p : PVal V} (h : dec heap p = none) : p = .sentinel := by
  cases p with
  | sentinel => rfl
  | ref i =>
    simp only [dec] at h
    cases hi : heap[i]? <;> rw [hi] at h <;> cases h
  | _ => cases h

theorem dec_user {heap : List (Box V)} {p : PVal V} {v : V} (h : dec heap p = some (.val (.user v))) : p = .user v := by
  cases p with
  | user w => cases h; rfl
  | ref i =>
    simp only [dec] at h
    cases hi : heap[i]? <;> rw [hi] at h <;> cases h
  | _ => cases h

theorem dec_pair {heap : List (Box V)} {p a b : PVal V} (h : dec heap p = some (.val (.pair a b))) : p = .pair a b := by
  cases p with
  | pair w => cases h; rfl
  | ref i =>
    simp only [dec] at h
    cases hi : heap[i]? <;> rw [hi] at h <;> cases h
  | _ => cases h

theorem dec_box {heap : List (Box V)} {p : PVal V} {b : Box V} (h : dec heap p = some (.box b)) :
    ∃ i, p = .ref i ∧ heap[i]? = some b := by
  cases p with
  | ref i =>
    simp only [dec] at h
    cases hi : heap[i]? with
    | none => rw [hi] at h; cases h
    | some c => rw [hi] at h; cases h; exact ⟨i, rfl, hi⟩
  | _ => cases h

end Verif.Stmt
