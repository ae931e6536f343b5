import Verif.Stmt.GroupFn
import Verif.Stmt.AggClass
import Verif.Stmt.AggCall

/-!
# Stmt: a call of the function of `group_by`
-/

set_option autoImplicit false

namespace Verif.Stmt

open Verif.Text Verif.Agg

variable {V E : Type}

/-! ## The `defaultdict` -/

section
variable {K S : Type} [BEq K]

/-- Looking up the number of an object instead of its values. -/
theorem get_zipIdx (k : K) : ∀ (d : List (K × S)) (n : Nat),
    match Dict.get? ((d.map Prod.fst).zipIdx n) k with
    | none => Dict.get? d k = none
    | some i => ∃ m k' s, i = n + m ∧ d[m]? = some (k', s) ∧ Dict.get? d k = some s ∧
        ∀ s', Dict.set d k s' = d.set m (k', s')
  | [], n => rfl
  | (a, s) :: d, n => by
    simp only [List.map_cons, List.zipIdx_cons, Dict.get?]
    by_cases h : (a == k) = true
    · simp only [h, if_true]
      exact ⟨0, a, s, rfl, rfl, rfl, fun s' => by simp [Dict.set, h]⟩
    · simp only [h]
      have := get_zipIdx k d (n + 1)
      revert this
      simp only [Bool.false_eq_true, if_false]
      cases Dict.get? ((d.map Prod.fst).zipIdx (n + 1)) k with
      | none => exact id
      | some i =>
        rintro ⟨m, k', s', h1, h2, h3, h4⟩
        refine ⟨m + 1, k', s', by omega, by simpa using h2, h3, fun s' => ?_⟩
        simp [Dict.set, h, h4]

end

/-! ## The states of the function -/

/-- The state of the function of `group_by` in its loop. -/
structure GInv (K : Nat → Option (DVal V) → Prop) (args : List String) (env : String → Option (PVal V)) (N : Nat)
    (d : List (PVal V × Slots (DVal V))) (rest : List V) (st : St V) : Prop where
  none_ : st.loc "_none" = some .sentinel
  dict : st.loc "signature_to_agg_data_" = some .dict
  cls : st.cls = classBody N
  keys : st.dict = (d.map Prod.fst).zipIdx
  len : st.objs.length = d.length
  slots : ∀ (i : Nat) k s, d[i]? = some (k, s) → ∃ o, st.objs[i]? = some o ∧
    ∀ j, j < N → ∃ p, o (attrName j) = some p ∧ dec st.heap p = s j ∧ Fits (K j) st.heap p
  apart : ∀ (i i' j j' : Nat) o o' p p', st.objs[i]? = some o → st.objs[i']? = some o' → j < N → j' < N →
    o (attrName j) = some p → o' (attrName j') = some p' → i ≠ i' ∨ j ≠ j' → Apart p p'
  iters : st.iters[0]? = some rest
  args : ∀ a ∈ args, st.loc a = env a

/-- The arguments have other names than the variables of the template. -/
def ArgsOkG (args : List String) : Prop :=
  ∀ a ∈ args, a ∉ ["_none", "signature_to_agg_data_", "row_", "agg_data_", "result_", "_d", "signature_"]

/-- The expression for the key, which must be hashable. -/
def evKey (P : Py V E) (a : Ast) (st : St V) : Res E (PVal V) :=
  match ev P a st with
  | .error x => .error x
  | .ok (k, _) =>
    match P.hash k with
    | .error e => .error (some e)
    | .ok () => .ok k

/-- The expression gives the key of the row. -/
def KeyOk (P : Py V E) (args : List String) (env : String → Option (PVal V)) (a : Ast)
    (keyOf : V → Except E (PVal V)) : Prop :=
  ∀ st row, Ctx args env st → st.loc "row_" = some (.user row) → evKey P a st = lift (keyOf row)

section
variable {K : Nat → Option (DVal V) → Prop} {P : Py V E} {condSem : String → V → Except E Bool} {args : List String} {env : String → Option (PVal V)}
  {N : Nat} {row : V}

theorem GInv.ctx {d : List (PVal V × Slots (DVal V))} {rest : List V} {st : St V} (h : GInv K args env N d rest st) :
    Ctx args env st := ⟨h.none_, h.args⟩

theorem gFrame (ha : ArgsOkG args) (rest : List V) (d : List (PVal V × Slots (DVal V))) (m : Nat) (k : PVal V)
    (hm : m < d.length) :
    Frame K P args env false N row
      (fun s st => GInv K args env N (d.set m (k, s)) rest st ∧ st.loc "agg_data_" = some (.obj m) ∧
        st.loc "row_" = some (.user row)) where
  get := by
    rintro s st j ⟨h, hd, _⟩ hj
    obtain ⟨o, h1, h2⟩ := h.slots m k s (by simp [hm])
    obtain ⟨p, h3, h4⟩ := h2 j hj
    exact ⟨p, ⟨m, o, hd, h1, h3⟩, h4⟩
  put := by
    rintro s st j p0 p st1 st2 ⟨h, hd, hr⟩ hj h0 h1 h2 hk0
    obtain ⟨o, g1, g2⟩ := h.slots m k s (by simp [hm])
    obtain ⟨q, g3, g4⟩ := g2 j hj
    have hq : q = p0 := by
      rw [place, ev_attr hd g1 g3] at h0
      simp only [Except.ok.injEq, Prod.mk.injEq, and_true] at h0
      exact h0
    subst hq
    have hst : st1 = { st with objs := st.objs.set m (fun x => if x = attrName j then some p else o x) } := by
      simp only [place, store] at h1
      rw [ev_loc hd] at h1
      simp only [g1, g3, Except.ok.injEq] at h1
      exact h1.symm
    subst hst
    have hl : ∀ x, x ≠ "_d" → st2.loc x = st.loc x := fun x hx => h2.loc x hx
    have hmo : m < st.objs.length := by rw [h.len]; simpa using hm
    -- what the other attributes hold
    have hother : ∀ (i j' : Nat) o' r, st.objs[i]? = some o' → j' < N → o' (attrName j') = some r → i ≠ m ∨ j' ≠ j →
        Valid st.heap r → dec st2.heap r = dec st.heap r ∧ Valid st2.heap r ∧ Apart p r := by
      intro i j' o' r e1 e2 e3 e4 e5
      refine h2.other e5 (h.apart m i j j' o o' q r g1 e1 hj e2 g3 e3 ?_)
      rcases e4 with e4 | e4
      · exact Or.inl (fun he => e4 he.symm)
      · exact Or.inr (fun he => e4 he.symm)
    have hvalid : ∀ (i j' : Nat) o' r, st.objs[i]? = some o' → j' < N → o' (attrName j') = some r →
        Valid st.heap r := by
      intro i j' o' r e1 e2 e3
      have hi : i < (d.set m (k, s)).length := by
        rw [← h.len]
        exact (List.getElem?_eq_some_iff.1 e1).1
      obtain ⟨o2, e4, e5⟩ := h.slots i _ _ (List.getElem?_eq_some_iff.2 ⟨hi, rfl⟩)
      rw [e1] at e4
      obtain rfl := Option.some.inj e4
      obtain ⟨r', e6, _, e7⟩ := e5 j' e2
      rw [e3] at e6
      obtain rfl := Option.some.inj e6
      exact e7.valid
    -- the attributes afterwards
    have hafter : ∀ (i j' : Nat) o' r, (st.objs.set m (fun x => if x = attrName j then some p else o x))[i]? = some o' →
        o' (attrName j') = some r →
        (i = m ∧ j' = j ∧ r = p) ∨ ((i ≠ m ∨ j' ≠ j) ∧ ∃ o2, st.objs[i]? = some o2 ∧ o2 (attrName j') = some r) := by
      intro i j' o' r e1 e2
      by_cases him : i = m
      · subst him
        rw [List.getElem?_set_self hmo] at e1
        obtain rfl := Option.some.inj e1
        by_cases hjj : j' = j
        · subst hjj
          simp only [if_true] at e2
          exact Or.inl ⟨rfl, rfl, (Option.some.inj e2).symm⟩
        · have : attrName j' ≠ attrName j := fun he => hjj (attrName_inj he)
          simp only [this, if_false] at e2
          exact Or.inr ⟨Or.inr hjj, o, g1, e2⟩
      · rw [List.getElem?_set_ne (fun he => him he.symm)] at e1
        exact Or.inr ⟨Or.inl him, o', e1, e2⟩
    refine ⟨⟨?_, ?_, ?_, ?_, ?_, ?_, ?_, ?_, ?_⟩, ?_, ?_⟩
    · rw [hl _ (by decide), h.none_]
    · rw [hl _ (by decide), h.dict]
    · rw [h2.cls]
      exact h.cls
    · rw [h2.dict]
      have := h.keys
      simp only [List.map_set] at this ⊢
      exact this
    · rw [h2.objs]
      simpa using h.len
    · intro i k' s' hi
      rw [h2.objs]
      by_cases him : i = m
      · subst him
        simp only [List.getElem?_set_self hm, Option.some.injEq, Prod.mk.injEq] at hi
        obtain ⟨_, rfl⟩ := hi
        refine ⟨_, List.getElem?_set_self hmo, ?_⟩
        intro j' hj'
        by_cases hjj : j' = j
        · subst hjj
          exact ⟨p, by simp, by simp [upd], h2.valid, hk0⟩
        · obtain ⟨q', g5, g6, g7⟩ := g2 j' hj'
          have : attrName j' ≠ attrName j := fun he => hjj (attrName_inj he)
          obtain ⟨e1, e2, _⟩ := hother i j' o q' g1 hj' g5 (Or.inr hjj) g7.valid
          exact ⟨q', by simp [this, g5], by simp [upd, hjj, g6, e1], e2, e1 ▸ g7.kind⟩
      · have hi' : (d.set m (k, s))[i]? = some (k', s') := by
          rw [List.getElem?_set_ne (fun he => him he.symm)] at hi ⊢
          exact hi
        obtain ⟨o', g5, g6⟩ := h.slots i k' s' hi'
        refine ⟨o', ?_, ?_⟩
        · simp only
          rw [List.getElem?_set_ne (fun he => him he.symm), g5]
        · intro j' hj'
          obtain ⟨r, e1, e2, e3⟩ := g6 j' hj'
          obtain ⟨e4, e5, _⟩ := hother i j' o' r g5 hj' e1 (Or.inl him) e3.valid
          exact ⟨r, e1, by rw [e4, e2], e5, e4 ▸ e3.kind⟩
    · intro i i' j1 j2 o1 o2 p1 p2 e1 e2 e3 e4 e5 e6 e7
      rw [h2.objs] at e1 e2
      rcases hafter i j1 o1 p1 e1 e5 with ⟨rfl, rfl, rfl⟩ | ⟨f1, o3, f2, f3⟩
      · rcases hafter i' j2 o2 p2 e2 e6 with ⟨rfl, rfl, rfl⟩ | ⟨f1, o3, f2, f3⟩
        · rcases e7 with e7 | e7 <;> exact absurd rfl e7
        · exact (hother i' j2 o3 p2 f2 e4 f3 f1 (hvalid i' j2 o3 p2 f2 e4 f3)).2.2
      · rcases hafter i' j2 o2 p2 e2 e6 with ⟨rfl, rfl, rfl⟩ | ⟨f4, o4, f5, f6⟩
        · exact (hother i j1 o3 p1 f2 e3 f3 f1 (hvalid i j1 o3 p1 f2 e3 f3)).2.2.symm
        · exact h.apart i i' j1 j2 o3 o4 p1 p2 f2 f5 e3 e4 f3 f6 e7
    · rw [h2.iters]
      exact h.iters
    · intro a hm'
      have h3 := ha a hm'
      simp only [List.mem_cons, List.not_mem_nil, or_false, not_or] at h3
      rw [hl a h3.2.2.2.2.2.1, h.args a hm']
    · rw [hl _ (by decide), hd]
    · rw [hl _ (by decide), hr]
  ctx := fun s st h => ⟨h.1.ctx, h.2.2⟩

/-- `agg_data_ = signature_to_agg_data_[…]`. -/
theorem fetch_run (hK : ∀ j, j < N → K j none) (ha : ArgsOkG args) {a : Ast} {keyOf : V → Except E (PVal V)} (hk : KeyOk P args env a keyOf)
    {rest : List V} {d : List (PVal V × Slots (DVal V))} {st : St V} (h : GInv K args env N d rest st)
    (hr : st.loc "row_" = some (.user row)) :
    match keyOf row with
    | .error e => exec P (.assign [.name "agg_data_"] (.sub (.name "signature_to_agg_data_") a)) st = .error (some e)
    | .ok k => ∃ (d' : List (PVal V × Slots (DVal V))) (m : Nat) (k' : PVal V) (st' : St V), exec P (.assign [.name "agg_data_"] (.sub (.name "signature_to_agg_data_") a)) st =
          .ok (st', .next) ∧ m < d'.length ∧
        GInv K args env N (d'.set m (k', (@Dict.get? _ _ ⟨P.keyEq⟩ d k).getD fresh)) rest st' ∧
        st'.loc "agg_data_" = some (.obj m) ∧ st'.loc "row_" = some (.user row) ∧
        ∀ s, @Dict.set _ _ ⟨P.keyEq⟩ d k s = d'.set m (k', s) := by
  letI : BEq (PVal V) := ⟨P.keyEq⟩
  have h1 := hk st row h.ctx hr
  have hsub : ev P (.sub (.name "signature_to_agg_data_") a) st =
      match evKey P a st with
      | .error x => .error x
      | .ok k => .ok (st.fetch P k) := by
    rw [ev.eq_6, ev_loc h.dict]
    simp only [evKey]
    cases ev P a st with
    | error x => rfl
    | ok r =>
      simp only
      cases P.hash r.1 <;> rfl
  rw [exec, hsub, h1]
  cases hkey : keyOf row with
  | error e => rfl
  | ok k =>
    simp only [lift, storeAll, store, St.fetch]
    have hz := get_zipIdx (S := Slots (DVal V)) k d 0
    rw [← h.keys] at hz
    revert hz
    cases hg : Dict.get? st.dict k with
    | some i =>
      rintro ⟨m, k', s, g1, g2, g3, g4⟩
      have hm : m < d.length := by
        rw [List.getElem?_eq_some_iff] at g2
        exact g2.1
      have hd : d.set m (k', (Dict.get? d k).getD fresh) = d := by
        rw [g3]
        apply List.ext_getElem?
        intro i'
        by_cases hi : i' = m
        · subst hi
          rw [List.getElem?_set_self hm, g2]
          rfl
        · rw [List.getElem?_set_ne (fun he => hi he.symm)]
      have hi : i = m := by omega
      subst hi
      have hl : ∀ x, x ≠ "agg_data_" → (st.set "agg_data_" (.obj i)).loc x = st.loc x := by
        intro x hx
        simp [St.set, hx]
      refine ⟨d, i, k', _, rfl, hm, ?_, by simp [St.set], by rw [hl _ (by decide), hr], g4⟩
      rw [hd]
      refine ⟨?_, ?_, h.cls, h.keys, h.len, h.slots, h.apart, h.iters, ?_⟩
      · rw [hl _ (by decide), h.none_]
      · rw [hl _ (by decide), h.dict]
      · intro a' hm'
        have h3 := ha a' hm'
        simp only [List.mem_cons, List.not_mem_nil, or_false, not_or] at h3
        rw [hl a' h3.2.2.2.1, h.args a' hm']
    | none =>
      intro hz
      have hno : Dict.has d k = false := by simp only [Dict.has, hz, Option.isSome_none]
      have hno' : Dict.has st.dict k = false := by simp only [Dict.has, hg, Option.isSome_none]
      have hl : ∀ x, x ≠ "agg_data_" → ∀ (s : St V), (s.set "agg_data_" (.obj st.objs.length)).loc x = s.loc x := by
        intro x hx s
        simp [St.set, hx]
      have hset : ∀ s, (d ++ [(k, fresh)]).set d.length (k, s) = d ++ [(k, s)] := by
        intro s
        rw [List.set_append_right _ _ (Nat.le_refl _)]
        simp
      refine ⟨d ++ [(k, fresh)], d.length, k, _, rfl, by simp, ?_, ?_, ?_, ?_⟩
      · rw [hset, hz]
        refine ⟨?_, ?_, ?_, ?_, ?_, ?_, ?_, ?_, ?_⟩
        · rw [hl _ (by decide)]
          exact h.none_
        · rw [hl _ (by decide)]
          exact h.dict
        · exact h.cls
        · simp only [St.set]
          rw [Dict.set_of_not_has _ _ _ hno', h.keys, h.len]
          simp [List.zipIdx_append]
        · simp [St.set, h.len]
        · intro i k' s' hi
          simp only [St.set]
          by_cases hid : i < d.length
          · rw [List.getElem?_append_left hid] at hi
            obtain ⟨o, g1, g2⟩ := h.slots i k' s' hi
            exact ⟨o, by rw [List.getElem?_append_left (by rw [h.len]; exact hid), g1], g2⟩
          · rw [List.getElem?_append_right (by omega)] at hi
            have hi0 : i - d.length = 0 := by
              cases hx : i - d.length with
              | zero => rfl
              | succ n => rw [hx] at hi; simp at hi
            rw [hi0] at hi
            simp only [List.getElem?_cons_zero, Option.getD_none, Option.some.injEq, Prod.mk.injEq] at hi
            obtain ⟨_, rfl⟩ := hi
            have hie : i = st.objs.length := by rw [h.len]; omega
            subst hie
            refine ⟨runInit (slotList st.cls) (methodBody "__init__" st.cls), by simp, ?_⟩
            intro j hj
            refine ⟨.sentinel, by rw [h.cls]; exact init_class N j hj, rfl, ?_, hK j hj⟩
            rintro r ⟨⟩
        · have hnew : ∀ (i j : Nat) o p, (st.objs ++ [runInit (slotList st.cls) (methodBody "__init__" st.cls)])[i]? =
              some o → j < N → o (attrName j) = some p → st.objs[i]? = some o ∨ (p : PVal V) = .sentinel := by
            intro i j o p e1 e2 e3
            by_cases hi : i < st.objs.length
            · rw [List.getElem?_append_left hi] at e1
              exact Or.inl e1
            · rw [List.getElem?_append_right (by omega)] at e1
              have hi0 : i - st.objs.length = 0 := by
                cases hx : i - st.objs.length with
                | zero => rfl
                | succ n => rw [hx] at e1; simp at e1
              rw [hi0] at e1
              simp only [List.getElem?_cons_zero, Option.some.injEq] at e1
              subst e1
              rw [h.cls, init_class N j e2] at e3
              exact Or.inr (Option.some.inj e3).symm
          intro i i' j1 j2 o1 o2 p1 p2 e1 e2 e3 e4 e5 e6 e7
          rcases hnew i j1 o1 p1 e1 e3 e5 with f1 | rfl
          · rcases hnew i' j2 o2 p2 e2 e4 e6 with f2 | rfl
            · exact h.apart i i' j1 j2 o1 o2 p1 p2 f1 f2 e3 e4 e5 e6 e7
            · rintro r _ ⟨⟩
          · rintro r ⟨⟩
        · exact h.iters
        · intro a' hm'
          have h3 := ha a' hm'
          simp only [List.mem_cons, List.not_mem_nil, or_false, not_or] at h3
          rw [hl a' h3.2.2.2.1]
          exact h.args a' hm'
      · simp [St.set, h.len]
      · rw [hl _ (by decide)]
        exact hr
      · intro s
        rw [hset, Dict.set_of_not_has _ _ _ hno]

theorem GInv.turn {r : V} {rest : List V} {d : List (PVal V × Slots (DVal V))} {st : St V} (ha : ArgsOkG args)
    (h : GInv K args env N d (r :: rest) st) :
    GInv K args env N d rest ({ st with iters := st.iters.set 0 rest }.set "row_" (.user r)) ∧
      ({ st with iters := st.iters.set 0 rest }.set "row_" (.user r)).loc "row_" = some (.user r) := by
  have hl : ∀ x, x ≠ "row_" → ({ st with iters := st.iters.set 0 rest }.set "row_" (.user r)).loc x = st.loc x := by
    intro x hx
    simp [St.set, hx]
  refine ⟨⟨?_, ?_, h.cls, h.keys, h.len, h.slots, h.apart, ?_, ?_⟩, by simp [St.set]⟩
  · rw [hl _ (by decide), h.none_]
  · rw [hl _ (by decide), h.dict]
  · have := h.iters
    simp only [St.set]
    rw [List.getElem?_set_self (by
      cases hi : st.iters with
      | nil => rw [hi] at this; simp at this
      | cons => simp)]
  · intro a hm
    have h3 := ha a hm
    simp only [List.mem_cons, List.not_mem_nil, or_false, not_or] at h3
    rw [hl a h3.2.2.1, h.args a hm]

/-- The loop over the rows. -/
theorem groupLoop_run (hK : ∀ j, j < N → K j none) (ha : ArgsOkG args) {a : Ast} {keyOf : V → Except E (PVal V)} (hk : KeyOk P args env a keyOf)
    {bs : List (Block V (DVal V) E)} {rs : List BlockSrc} (hb : BlocksRel K P condSem args env false N bs rs)
    (hf : ∀ b ∈ bs, b.flag = 0) : ∀ (rows : List V) {d : List (PVal V × Slots (DVal V))} {st : St V},
    GInv K args env N d rows st →
    match @groupLoop _ _ _ _ ⟨P.keyEq⟩ condSem bs keyOf rows d with
    | .error e => loop "row_" 0 (execAll P (.assign [.name "agg_data_"] (.sub (.name "signature_to_agg_data_") a) ::
        rs.flatMap BlockSrc.stmts)) rows.length st = .error (some e)
    | .ok d' => ∃ st', loop "row_" 0 (execAll P (.assign [.name "agg_data_"]
          (.sub (.name "signature_to_agg_data_") a) :: rs.flatMap BlockSrc.stmts)) rows.length st =
        .ok (st', .next) ∧ GInv K args env N d' [] st'
  | [], d, st, h => by
    refine ⟨st, ?_, h⟩
    unfold loop
    rw [h.iters]
  | r :: rows, d, st, h => by
    letI : BEq (PVal V) := ⟨P.keyEq⟩
    obtain ⟨h1, h2⟩ := h.turn ha
    have hfetch := fetch_run (P := P) hK ha hk h1 h2
    simp only [groupLoop]
    rw [List.length_cons, loop, h.iters]
    simp only
    rw [execAll]
    revert hfetch
    cases keyOf r with
    | error e =>
      intro hfetch
      rw [hfetch]
    | ok k =>
      rintro ⟨d', m, k', st', e1, hm, e2, e3, e4, e5⟩
      rw [e1]
      simp only
      have hblocks := blocks_run (gFrame (K := K) (P := P) (row := r) ha rows d' m k' hm) hb hf ⟨e2, e3, e4⟩
      revert hblocks
      cases runBlocks condSem r bs ((Dict.get? d k).getD fresh) with
      | error e =>
        intro hblocks
        rw [hblocks]
      | ok s =>
        rintro ⟨st2, e6, e7, _, _⟩
        rw [e6]
        simp only [e5 s]
        exact groupLoop_run hK ha hk hb hf rows e7

/-- The comprehension over the groups. -/
theorem pairVals_run (ha : ArgsOkG args) {e : Ast} {res : PVal V → Slots (DVal V) → Except E (Val V)}
    (hres : ∀ st k s, Ctx args env st → st.loc "signature_" = some k →
      (∀ j, j < N → ∃ p, ev P (place false j) st = .ok (p, st) ∧ dec st.heap p = s j ∧ Fits (K j) st.heap p) →
      Yields P e st (res k s)) {st : St V} (hc : Ctx args env st) :
    ∀ (d : List (PVal V × Slots (DVal V))) (n : Nat),
      (∀ (i : Nat) k s, d[i]? = some (k, s) → ∃ o, st.objs[n + i]? = some o ∧
        ∀ j, j < N → ∃ p, o (attrName j) = some p ∧ dec st.heap p = s j ∧ Fits (K j) st.heap p) →
      (pairVals P e "signature_" "agg_data_" st ((d.map Prod.fst).zipIdx n)).map (List.map (dec st.heap)) =
        lift (mapAll (fun g => res g.1 g.2) d)
  | [], n, _ => rfl
  | (k, s) :: d, n, h => by
    obtain ⟨o, h1, h2⟩ := h 0 k s rfl
    have hl : ∀ x, x ≠ "signature_" → x ≠ "agg_data_" →
        ((st.set "signature_" k).set "agg_data_" (.obj n)).loc x = st.loc x := by
      intro x hx hy
      simp [St.set, hx, hy]
    have hc' : Ctx args env ((st.set "signature_" k).set "agg_data_" (.obj n)) := by
      refine ⟨?_, ?_⟩
      · rw [hl _ (by decide) (by decide), hc.none_]
      · intro a hm
        have h3 := ha a hm
        simp only [List.mem_cons, List.not_mem_nil, or_false, not_or] at h3
        rw [hl a h3.2.2.2.2.2.2 h3.2.2.2.1, hc.args a hm]
    have h3 := hres ((st.set "signature_" k).set "agg_data_" (.obj n)) k s hc' (by simp [St.set]) (by
      intro j hj
      obtain ⟨p, g1, g2⟩ := h2 j hj
      exact ⟨p, ev_attr (m := n) (by simp [St.set]) (by simpa [St.set] using h1) g1, g2⟩)
    have ih := pairVals_run ha hres hc d (n + 1) (by
      intro i k' s' hi
      have := h (i + 1) k' s' (by simpa using hi)
      rwa [show n + 1 + i = n + (i + 1) by omega])
    simp only [List.map_cons, List.zipIdx_cons, pairVals, mapAll]
    unfold Yields at h3
    revert h3
    cases res k s with
    | error x =>
      intro h3
      simp only at h3
      rw [h3]
      rfl
    | ok w =>
      rintro ⟨v, h3, h4⟩
      rw [h3]
      simp only
      revert ih
      cases pairVals P e "signature_" "agg_data_" st ((d.map Prod.fst).zipIdx (n + 1)) with
      | error x =>
        intro ih
        cases hm : mapAll (fun g => res g.1 g.2) d with
        | error y => rw [hm] at ih; cases ih; rfl
        | ok ws => rw [hm] at ih; cases ih
      | ok vs =>
        intro ih
        cases hm : mapAll (fun g => res g.1 g.2) d with
        | error y => rw [hm] at ih; cases ih
        | ok ws =>
          rw [hm] at ih
          simp only [Except.map, lift, Except.ok.injEq] at ih
          simp only [Except.map, lift, List.map_cons, ih, ← h4]
          rfl

end

/-- What a call of a generated function needs: as many arguments as parameters, and global names. -/
structure CallOkG (P : Py V E) (f : FnText) (r : FnSrc) (cls : String) (N : Nat) (vals : List (PVal V)) : Prop where
  length : vals.length = f.args.length
  none_ : ∃ nm, r.noneA = .name nm ∧ nm ∉ "data_" :: f.args ∧ P.glob nm = some .sentinel
  defaultdict : "defaultdict" ∉ f.args ∧ P.glob "defaultdict" = some (.builtin "defaultdict")
  cls : cls ∉ "data_" :: "_none" :: f.args ∧ P.glob cls = some (.cls (classBody N))

/-- The statements of `GROUPER_TEMPLATE` (`aggregations.py` 755-766) before the result is computed. -/
def grouperLoops (r : FnSrc) (cls : String) (sigA : Ast) (bs : List BlockSrc) : List Stmt :=
  r.startStmts ++
  [.assign [.name "signature_to_agg_data_"] (.call (.name "defaultdict") [.name cls] []),
    .for_ "row_" (.name "data_")
      (.assign [.name "agg_data_"] (.sub (.name "signature_to_agg_data_") sigA) :: bs.flatMap BlockSrc.stmts)]

theorem grouperStmts_eq (r : FnSrc) (cls : String) (sigA : Ast) (bs : List BlockSrc) :
    grouperStmts r cls sigA bs = grouperLoops r cls sigA bs ++ r.endStmts := by
  simp [grouperStmts, grouperLoops]

/-- The state of the function when the loop is over. -/
theorem group_loops {K : Nat → Option (DVal V) → Prop} {P : Py V E} {condSem : String → V → Except E Bool} {f : FnText} {r : FnSrc} {cls : String}
    {vals : List (PVal V)} {gs : List String} (hg : ∀ g ∈ gs, g ∉ "data_" :: f.args) (hnd : ("data_" :: f.args).Nodup)
    (ha : ArgsOkG (f.args ++ gs)) {N : Nat}
    (hK : ∀ j, j < N → K j none) (hcall : CallOkG P f r cls N vals) {a : Ast} {keyOf : V → Except E (PVal V)}
    (hk : KeyOk P (f.args ++ gs) (envOf f.args vals) a keyOf) {bs : List (Block V (DVal V) E)} {qs : List BlockSrc}
    (hb : BlocksRel K P condSem (f.args ++ gs) (envOf f.args vals) false N bs qs) (hf : ∀ b ∈ bs, b.flag = 0)
    (rows : List V) :
    match @groupLoop _ _ _ _ ⟨P.keyEq⟩ condSem bs keyOf rows [] with
    | .error e => execAll P (grouperLoops r cls a qs) (entry ("data_" :: f.args) (.data rows :: vals)) = .error (some e)
    | .ok d => ∃ st, execAll P (grouperLoops r cls a qs) (entry ("data_" :: f.args) (.data rows :: vals)) = .ok (st, .next) ∧
        GInv K (f.args ++ gs) (envOf f.args vals) N d [] st := by
  letI : BEq (PVal V) := ⟨P.keyEq⟩
  obtain ⟨nm, hnm, hnm2, hnm3⟩ := hcall.none_
  have hfix : ∀ x ∈ ["_none", "signature_to_agg_data_", "row_", "agg_data_", "result_", "_d", "signature_"],
      x ∉ f.args ++ gs := fun x hx ha' => ha x ha' hx
  -- the state when the body begins
  let st0 : St V := { loc := fun x => (("data_" :: f.args).zip (.data rows :: vals)).lookup x, iters := [], objs := [],
                      cls := [], dict := [], heap := [] }
  have hlook : ∀ x, x ∉ "data_" :: f.args → st0.loc x = none := by
    intro x hx
    simp only [st0]
    rw [List.lookup_eq_none_iff]
    intro p hp
    have := (List.of_mem_zip hp).1
    rw [bne_iff_ne]
    intro he
    exact hx (he ▸ this)
  have hdata : st0.loc "data_" = some (.data rows) := by simp [st0, List.zip_cons_cons, List.lookup]
  have hargs : ∀ a ∈ f.args ++ gs, st0.loc a = envOf f.args vals a := by
    intro a hm
    have hne : a ≠ "data_" := by
      rintro rfl
      rcases List.mem_append.1 hm with hm | hm
      · exact (List.nodup_cons.1 hnd).1 hm
      · exact hg _ hm (List.mem_cons_self ..)
    have : (a == "data_") = false := by simpa using hne
    simp only [st0, List.zip_cons_cons, List.lookup, this, envOf]
  have e1 : execAll P r.startStmts st0 = .ok (st0.set "_none" .sentinel, .next) := by
    have hn : ev P (.name nm) st0 = .ok (.sentinel, st0) := by
      simp only [ev, St.look, hlook nm hnm2, hnm3, ite_self]
    simp only [FnSrc.startStmts, execAll, exec, hnm, hn, storeAll, store]
  let st1 := st0.set "_none" .sentinel
  let st2 : St V := { st1 with cls := classBody N, dict := [] }
  let st3 := st2.set "signature_to_agg_data_" .dict
  let st4 : St V := { st3 with iters := [rows] }
  have e2 : ev P (.call (.name "defaultdict") [.name cls] []) st1 = .ok (.dict, st2) := by
    have h1 : st1.look P "defaultdict" = some (.builtin "defaultdict") := by
      have : st1.loc "defaultdict" = none := by
        have : st1.loc "defaultdict" = st0.loc "defaultdict" := by simp [st1, St.set]
        rw [this]
        refine hlook _ ?_
        simp only [List.mem_cons, not_or]
        exact ⟨by decide, hcall.defaultdict.1⟩
      simp only [St.look, this, hcall.defaultdict.2, ite_self]
    have h2 : ev P (.name cls) st1 = .ok (.cls (classBody N), st1) := by
      have hc := hcall.cls.1
      simp only [List.mem_cons, not_or] at hc
      have : st1.loc cls = none := by
        have : st1.loc cls = st0.loc cls := by simp [st1, St.set, hc.2.1]
        rw [this]
        refine hlook _ ?_
        simp only [List.mem_cons, not_or]
        exact ⟨hc.1, hc.2.2⟩
      simp only [ev, St.look, this, hcall.cls.2, ite_self]
    rw [ev.eq_5, h1, h2]
    simp only [if_true, st2]
  have hinv : GInv K (f.args ++ gs) (envOf f.args vals) N [] rows st4 := by
    refine ⟨?_, ?_, rfl, rfl, rfl, ?_, ?_, rfl, ?_⟩
    · simp [st4, st3, st2, st1, St.set]
    · simp [st4, st3, St.set]
    · intro i k s hi
      simp at hi
    · intro i i' j j' o o' p p' hi
      simp [st4, st3, st2, st1, st0, St.set] at hi
    · intro a hm
      have h3 := ha a hm
      simp only [List.mem_cons, List.not_mem_nil, or_false, not_or] at h3
      rw [← hargs a hm]
      simp [st4, st3, st2, st1, St.set, h3.1, h3.2.1]
  have e3 : execAll P (grouperLoops r cls a qs) st0 =
      loop "row_" 0 (execAll P (.assign [.name "agg_data_"] (.sub (.name "signature_to_agg_data_") a) ::
          qs.flatMap BlockSrc.stmts)) rows.length st4 := by
    rw [grouperLoops, execAll_append, e1]
    simp only
    rw [execAll, exec, e2]
    simp only [storeAll, store]
    have h1 : ev P (.name "data_") st3 = .ok (.data rows, st3) := by
      refine ev_loc ?_
      rw [← hdata]
      simp [st3, st2, st1, St.set]
    have h2 : exec P (.for_ "row_" (.name "data_") (.assign [.name "agg_data_"]
        (.sub (.name "signature_to_agg_data_") a) :: qs.flatMap BlockSrc.stmts)) st3 =
        loop "row_" 0 (execAll P (.assign [.name "agg_data_"] (.sub (.name "signature_to_agg_data_") a) ::
          qs.flatMap BlockSrc.stmts)) rows.length st4 := by
      rw [exec, h1]
      rfl
    rw [execAll, h2]
    cases loop "row_" 0 (execAll P (.assign [.name "agg_data_"] (.sub (.name "signature_to_agg_data_") a) ::
        qs.flatMap BlockSrc.stmts)) rows.length st4 with
    | error x => rfl
    | ok x =>
      obtain ⟨st, c⟩ := x
      cases c <;> simp only [execAll]
  have l1 := groupLoop_run (P := P) hK ha hk hb hf rows hinv
  rw [← e3] at l1
  exact l1

/-- A call of the function of `group_by`. -/
theorem group_call {K : Nat → Option (DVal V) → Prop} {P : Py V E} {condSem : String → V → Except E Bool} {f : FnText} {r : FnSrc} {cls : String}
    {vals : List (PVal V)} {gs : List String} (hg : ∀ g ∈ gs, g ∉ "data_" :: f.args) (hnd : ("data_" :: f.args).Nodup)
    (ha : ArgsOkG (f.args ++ gs)) {N : Nat}
    (hK : ∀ j, j < N → K j none) (hcall : CallOkG P f r cls N vals) {a : Ast} {keyOf : V → Except E (PVal V)}
    (hk : KeyOk P (f.args ++ gs) (envOf f.args vals) a keyOf) {bs : List (Block V (DVal V) E)} {qs : List BlockSrc}
    (hb : BlocksRel K P condSem (f.args ++ gs) (envOf f.args vals) false N bs qs) (hf : ∀ b ∈ bs, b.flag = 0)
    {res : PVal V → Slots (DVal V) → Except E (Val V)} {e : Ast}
    (hr : r.result = .pairs e "signature_" "agg_data_" (.call (.attr (.name "signature_to_agg_data_") "items") [] []))
    (hres : ∀ st k s, Ctx (f.args ++ gs) (envOf f.args vals) st → st.loc "signature_" = some k →
      (∀ j, j < N → ∃ p, ev P (place false j) st = .ok (p, st) ∧ dec st.heap p = s j ∧ Fits (K j) st.heap p) →
      Yields P e st (res k s))
    {sort : Val V → Except E (Val V)} (hs : SortOk P (f.args ++ gs) (envOf f.args vals) r.sort sort) (rows : List V) :
    callDef P f.name (.data rows :: vals)
        [.def_ f.name ("data_" :: f.args) [] (grouperStmts r cls a qs)] =
      lift (andThen (andThen (@groupLoop _ _ _ _ ⟨P.keyEq⟩ condSem bs keyOf rows [])
        (fun d => (mapAll (fun g => res g.1 g.2) d).map P.newList)) sort) := by
  letI : BEq (PVal V) := ⟨P.keyEq⟩
  have hfix : ∀ x ∈ ["_none", "signature_to_agg_data_", "row_", "agg_data_", "result_", "_d", "signature_"],
      x ∉ f.args ++ gs := fun x hx ha' => ha x ha' hx
  have e4 : callDef P f.name (.data rows :: vals) [.def_ f.name ("data_" :: f.args) [] (grouperStmts r cls a qs)] =
      match execAll P (grouperStmts r cls a qs) (entry ("data_" :: f.args) (.data rows :: vals)) with
      | .error x => .error x
      | .ok (st, .ret v) => .ok (dec st.heap v)
      | .ok _ => .error none := by
    simp only [callDef, List.length_cons, hcall.length, and_self, if_true]
    rfl
  rw [e4, grouperStmts_eq, execAll_append]
  have l1 := group_loops (condSem := condSem) hg hnd ha hK hcall hk hb hf rows
  revert l1
  cases groupLoop condSem bs keyOf rows [] with
  | error x =>
    intro l1
    rw [l1]
    rfl
  | ok d =>
    rintro ⟨st5, g1, g2⟩
    rw [g1]
    simp only
    have hp := pairVals_run ha hres g2.ctx d 0 (by
      intro i k s hi
      rw [Nat.zero_add]
      exact g2.slots i k s hi)
    rw [← g2.keys] at hp
    have hx : Stores P r.result st5 ((mapAll (fun g => res g.1 g.2) d).map P.newList) := by
      unfold Stores
      rw [hr, Rhs.stmt]
      revert hp
      cases hm : mapAll (fun g => res g.1 g.2) d with
      | error x =>
        intro hp
        simp only [Except.map]
        rw [exec]
        simp only [itemsOf, look_loc g2.dict]
        cases hpv : pairVals P e "signature_" "agg_data_" st5 st5.dict with
        | error y => rw [hpv] at hp; cases hp; rfl
        | ok vs => rw [hpv] at hp; cases hp
      | ok ws =>
        intro hp
        cases hpv : pairVals P e "signature_" "agg_data_" st5 st5.dict with
        | error y => rw [hpv] at hp; cases hp
        | ok vs =>
          rw [hpv] at hp
          simp only [Except.map, lift, Except.ok.injEq] at hp
          refine ⟨.user (P.mkList ws), ?_, rfl⟩
          rw [exec]
          simp only [itemsOf, look_loc g2.dict, hpv, hp, store]
    have hend := end_run (hfix _ (by decide)) hs g2.ctx hx
    simp only [andThen] at hend ⊢
    revert hend
    cases (mapAll (fun g => res g.1 g.2) d).map P.newList with
    | error x =>
      intro hend
      rw [hend]
      rfl
    | ok v =>
      simp only
      cases sort v with
      | error x =>
        intro hend
        rw [hend]
        rfl
      | ok w =>
        rintro ⟨st6, v6, hend, rfl⟩
        rw [hend]
        rfl

end Verif.Stmt
