import Verif.Agg.Props
import Verif.Agg.Result

/-!
# Properties C24 (group_by), C32: the list of results
-/

set_option autoImplicit false

namespace Verif.Agg

open Verif

variable {R V E K W C : Type}

/-- The two lists have the same length, and elements at the same place are related. -/
inductive Each {A B : Type} (P : A → B → Prop) : List A → List B → Prop
  | nil : Each P [] []
  | cons {a : A} {b : B} {as : List A} {bs : List B} : P a b → Each P as bs → Each P (a :: as) (b :: bs)

theorem each_mapAll {A B : Type} {f : A → Except E B} : ∀ {as : List A} {bs : List B}, mapAll f as = .ok bs →
    Each (fun a b => f a = .ok b) as bs
  | [], _, h => by
    simp only [mapAll, Except.ok.injEq] at h
    subst h
    exact .nil
  | a :: as, bs, h => by
    simp only [mapAll] at h
    cases hf : f a with
    | error e => simp [hf] at h
    | ok b =>
      cases hm : mapAll f as with
      | error e => simp [hf, hm] at h
      | ok bs' =>
        simp only [hf, hm, Except.ok.injEq] at h
        subst h
        exact .cons hf (each_mapAll hm)

theorem mapAll_error {A B : Type} {f : A → Except E B} {e : E} : ∀ {as : List A}, mapAll f as = .error e →
    ∃ a ∈ as, f a = .error e
  | [], h => by simp [mapAll] at h
  | a :: as, h => by
    simp only [mapAll] at h
    cases hf : f a with
    | error e' =>
      simp only [hf, Except.error.injEq] at h
      exact ⟨a, by simp, by rw [hf, h]⟩
    | ok b =>
      cases hm : mapAll f as with
      | error e' =>
        simp only [hf, hm, Except.error.injEq] at h
        subst h
        obtain ⟨x, hx, hfx⟩ := mapAll_error hm
        exact ⟨x, by simp [hx], hfx⟩
      | ok bs => simp [hf, hm] at h

theorem each_length {A B : Type} {P : A → B → Prop} : ∀ {as : List A} {bs : List B}, Each P as bs →
    as.length = bs.length
  | _, _, .nil => rfl
  | _, _, .cons _ h => by simp [each_length h]

/-- Without a reduce nothing is compiled, with one something is. -/
theorem compiles_iff (aggMode : Bool) (rs : List (Red R V E)) :
    compiles (compile aggMode rs).items.length = true ↔ rs ≠ [] := by
  have h1 : compiles (compile aggMode rs).items.length = true ↔ (compile aggMode rs).items ≠ [] := by
    cases h : (compile aggMode rs).items with
    | nil => simp [compiles, initLines]
    | cons a as => simp [compiles, initLines]
  rw [h1]
  cases rs with
  | nil => simp [compile, dedupLoop]
  | cons r rs =>
    simp only [ne_eq, reduceCtorEq, not_false_eq_true, iff_true]
    intro h
    obtain ⟨j, it, _, h2, _⟩ := (compile_inv aggMode (r :: rs)).share 0 r rfl
    rw [h] at h2
    simp at h2

/-! ## C32 -/

/-- **C32 (partial).** A compiled `group_by(...).aggregate(...)` gives one result per distinct key, in order of first
appearance, each made by the result expression from its key and the values of the reduces.  What is missing: without
any reduce the code does not compile (`C32_refuted_no_reduces`). -/
theorem C32_output_partial [BEq K] [EquivBEq K] (condSem : String → R → Except E Bool) (keyOf : R → Except E K)
    (rs : List (Red R V E)) (result : K → List (Option V) → Except E W) (lt : C → C → Bool) (hrs : rs ≠ []) :
    ∃ run, groupByCode condSem keyOf rs result lt (.off : SortKey W C E) = some run ∧
      ∀ rows out, run rows = .ok out →
        ∃ iks groups, keysOf keyOf rows = .ok iks ∧ groupBy condSem keyOf rs rows = .ok groups ∧
          OneEachInOrder iks (groups.map Prod.fst) ∧
          Each (fun g x => result g.1 g.2 = .ok x) groups out := by
  simp only [groupByCode, (compiles_iff false rs).2 hrs, if_true, Option.some.injEq, exists_eq_left']
  intro rows out h
  cases hg : groupBy condSem keyOf rs rows with
  | error e => simp [hg] at h
  | ok groups =>
    cases hm : mapAll (fun g : K × List (Option V) => result g.1 g.2) groups with
    | error e => simp [hg, hm] at h
    | ok xs =>
      simp only [hg, hm, sortResult, Except.ok.injEq] at h
      subst h
      obtain ⟨iks, h1, h2⟩ := C32_one_per_key condSem keyOf rs rows groups hg
      exact ⟨iks, groups, h1, rfl, h2, each_mapAll hm⟩

/-- **C32 is violated by the code** without reduces: `c.group_by(c.item(0)).aggregate(c.item(0))` makes a class with an
empty method, which is a syntax error; no list of keys comes out.  The same for `c.aggregate(c.naive(...))`. -/
theorem C32_refuted_no_reduces [BEq K] (condSem : String → R → Except E Bool) (keyOf : R → Except E K)
    (result : K → List (Option V) → Except E W) (lt : C → C → Bool) (sort : SortKey W C E) :
    groupByCode condSem keyOf ([] : List (Red R V E)) result lt sort = none ∧
    ∀ result' : List (Option V) → Except E W, aggregateCode condSem ([] : List (Red R V E)) result' = none := by
  have h : ∀ m, compiles (compile m ([] : List (Red R V E))).items.length = false := by
    intro m
    cases hc : compiles (compile m ([] : List (Red R V E))).items.length with
    | false => rfl
    | true => exact absurd rfl ((compiles_iff m ([] : List (Red R V E))).1 hc)
  exact ⟨by simp [groupByCode, h], fun _ => by simp [aggregateCode, h]⟩

/-- Rows grouped by their first field, with the sum of the second. -/
example : ∃ run, groupByCode sampleCond (fun row : Row2 => (.ok row.1 : Except String (Option Int)))
      [sampleSum "s" none (·.2)] (fun k vs => .ok (k, vs)) (fun (_ _ : Nat) => false) .off = some run ∧
    run [(some 2, some 1), (some 1, some 5), (some 2, some 3)] = .ok [(some 2, [some 4]), (some 1, [some 5])] :=
  ⟨_, rfl, rfl⟩

/-! ## C24 for `group_by` -/

/-- **C24** for `group_by(...).aggregate(...).sort(key, reverse)`: with the result of the unsorted aggregation and the
keys of its elements, the sorted one is a stable sort of them by these keys; it raises if one of the keys raises. -/
theorem C24_group_by [BEq K] (condSem : String → R → Except E Bool) (keyOf : R → Except E K)
    (rs : List (Red R V E)) (result : K → List (Option V) → Except E W) (lt : C → C → Bool) (hlt : PySort.WeakOrder lt)
    (key : W → Except E C) (reverse : Bool) (run : List R → Except E (List W))
    (hrun : groupByCode condSem keyOf rs result lt (.off : SortKey W C E) = some run) :
    ∃ run', groupByCode condSem keyOf rs result lt (.by key reverse) = some run' ∧ ∀ rows,
      (∀ e, run rows = .error e → run' rows = .error e) ∧
      (∀ xs, run rows = .ok xs →
        (∃ cs ps, Each (fun x c => key x = .ok c) xs cs ∧ run' rows = .ok (ps.map Prod.snd) ∧
          PySort.SortOf (fun a b => lt a.1 b.1) reverse (cs.zip xs) ps) ∨
        (∃ e, ∃ x ∈ xs, key x = .error e ∧ run' rows = .error e)) := by
  simp only [groupByCode] at hrun ⊢
  split at hrun
  · rename_i hc
    simp only [Option.some.injEq] at hrun
    subst hrun
    simp only [hc, if_true, Option.some.injEq, exists_eq_left']
    intro rows
    cases hg : groupBy condSem keyOf rs rows with
    | error e => simp
    | ok groups =>
      cases hm : mapAll (fun g : K × List (Option V) => result g.1 g.2) groups with
      | error e => simp [hm]
      | ok xs =>
        refine ⟨by simp [hm, sortResult], ?_⟩
        intro xs' hxs
        simp only [hm, sortResult, Except.ok.injEq] at hxs
        subst hxs
        simp only [hm, sortResult, listSort]
        cases hk : mapAll key xs with
        | error e =>
          right
          obtain ⟨x, hx, hkx⟩ := mapAll_error hk
          exact ⟨e, x, hx, hkx, rfl⟩
        | ok cs =>
          left
          refine ⟨cs, _, each_mapAll hk, rfl, PySort.pySorted_ok ?_ reverse _⟩
          exact ⟨fun a b => hlt.asymm a.1 b.1, fun a b c => hlt.negTrans a.1 b.1 c.1⟩
  · simp at hrun

/-- Sorted by the sums, descending; the groups 2 and 3 have the same sum and keep their order. -/
example : ∃ run, groupByCode sampleCond (fun row : Row2 => (.ok row.1 : Except String (Option Int)))
      [sampleSum "s" none (·.2)] (fun k vs => .ok (k, vs)) (fun a b : Int => decide (a < b))
      (.by (fun x => match x.2 with | [some v] => .ok v | _ => .error "TypeError") true) = some run ∧
    run [(some 2, some 1), (some 1, some 5), (some 2, some 3), (some 3, some 4)] =
      .ok [(some 1, [some 5]), (some 2, [some 4]), (some 3, [some 4])] :=
  ⟨_, rfl, by rfl⟩

end Verif.Agg
