import Verif.Expr.Props4

/-!
# C22, C23, C24 with effects: optional items and comprehensions, step by step

The theorems of `Props3` and `Props4` are about conditions and items without effects.  Here they may do anything
to the state, depend on it and raise: relations say, one step after another, what happens.
-/

set_option autoImplicit false

namespace Verif.Expr

section
variable {Val U Err : Type} {R : Runtime Val U Err} {fuel : Nat} {N : Names Val} {A : Env Val}
  {var : String → String}

/-- The truth of a condition on `x`: its value is computed, then tested; without a condition everything passes. -/
inductive Asks (R : Runtime Val U Err) (fuel : Nat) (A : Env Val) (x : Val) :
    Option (Conv Val) → St Val U → Except Err Bool → St Val U → Prop
  | all {s : St Val U} : Asks R fuel A x none s (.ok true) s
  | raises {c : Conv Val} {s s1 : St Val U} {e : Err} : den R fuel A c x s = (.error e, s1) →
      Asks R fuel A x (some c) s (.error e) s1
  | tests {c : Conv Val} {s s1 : St Val U} {y : Val} {r : Except Err Bool} {u : U} :
      den R fuel A c x s = (.ok y, s1) → R.truthy y s1.u = (r, u) →
      Asks R fuel A x (some c) s r { s1 with u := u }

/-- A new item of a list or tuple, a new element of a set (which hashes it), a new pair of a dict (which hashes the
key when key and value are known). -/
inductive Adds (R : Runtime Val U Err) (fuel : Nat) (A : Env Val) (x : Val) (item value : Conv Val) :
    Kind → St Val U → Except Err (List Val) → St Val U → Prop
  | raises {k : Kind} {s s1 : St Val U} {e : Err} : den R fuel A item x s = (.error e, s1) →
      Adds R fuel A x item value k s (.error e) s1
  | list {s s1 : St Val U} {a : Val} : den R fuel A item x s = (.ok a, s1) →
      Adds R fuel A x item value .list s (.ok [a]) s1
  | tuple {s s1 : St Val U} {a : Val} : den R fuel A item x s = (.ok a, s1) →
      Adds R fuel A x item value .tuple s (.ok [a]) s1
  | set {s s1 : St Val U} {a h : Val} {u : U} : den R fuel A item x s = (.ok a, s1) →
      R.op .hash [a] s1.u = (.ok h, u) → Adds R fuel A x item value .set s (.ok [a]) { s1 with u := u }
  | unhashable {s s1 : St Val U} {a : Val} {e : Err} {u : U} : den R fuel A item x s = (.ok a, s1) →
      R.op .hash [a] s1.u = (.error e, u) → Adds R fuel A x item value .set s (.error e) { s1 with u := u }
  | valueRaises {s s1 s2 : St Val U} {a : Val} {e : Err} : den R fuel A item x s = (.ok a, s1) →
      den R fuel A value x s1 = (.error e, s2) → Adds R fuel A x item value .dict s (.error e) s2
  | dict {s s1 s2 : St Val U} {a b h : Val} {u : U} : den R fuel A item x s = (.ok a, s1) →
      den R fuel A value x s1 = (.ok b, s2) → R.op .hash [a] s2.u = (.ok h, u) →
      Adds R fuel A x item value .dict s (.ok [a, b]) { s2 with u := u }
  | unhashableKey {s s1 s2 : St Val U} {a b : Val} {e : Err} {u : U} : den R fuel A item x s = (.ok a, s1) →
      den R fuel A value x s1 = (.ok b, s2) → R.op .hash [a] s2.u = (.error e, u) →
      Adds R fuel A x item value .dict s (.error e) { s2 with u := u }

/-- The run of a comprehension over the iterator `it`, taking `n` elements: the next element is taken, its condition
is asked, the item is added, and so on until the iterator ends or something raises. -/
inductive Collects (R : Runtime Val U Err) (fuel : Nat) (A : Env Val) (k : Kind) (item value : Conv Val)
    (cond : Option (Conv Val)) (it : Val) : Nat → St Val U → Except Err (List Val) → St Val U → Prop
  | ends {s : St Val U} {u : U} : R.next it s.u = (.ok none, u) →
      Collects R fuel A k item value cond it 0 s (.ok []) { s with u := u }
  | breaks {s : St Val U} {u : U} {e : Err} : R.next it s.u = (.error e, u) →
      Collects R fuel A k item value cond it 0 s (.error e) { s with u := u }
  | condRaises {s s1 : St Val U} {u : U} {x : Val} {e : Err} : R.next it s.u = (.ok (some x), u) →
      Asks R fuel A x cond { s with u := u } (.error e) s1 →
      Collects R fuel A k item value cond it 0 s (.error e) s1
  | rejects {n : Nat} {s s1 s2 : St Val U} {u : U} {x : Val} {r : Except Err (List Val)} :
      R.next it s.u = (.ok (some x), u) → Asks R fuel A x cond { s with u := u } (.ok false) s1 →
      Collects R fuel A k item value cond it n s1 r s2 → Collects R fuel A k item value cond it (n + 1) s r s2
  | itemRaises {s s1 s2 : St Val U} {u : U} {x : Val} {e : Err} : R.next it s.u = (.ok (some x), u) →
      Asks R fuel A x cond { s with u := u } (.ok true) s1 → Adds R fuel A x item value k s1 (.error e) s2 →
      Collects R fuel A k item value cond it 0 s (.error e) s2
  | accepts {n : Nat} {s s1 s2 s3 : St Val U} {u : U} {x : Val} {ys : List Val} {r : Except Err (List Val)} :
      R.next it s.u = (.ok (some x), u) → Asks R fuel A x cond { s with u := u } (.ok true) s1 →
      Adds R fuel A x item value k s1 (.ok ys) s2 → Collects R fuel A k item value cond it n s2 r s3 →
      Collects R fuel A k item value cond it (n + 1) s (r.map (ys ++ ·)) s3

/-- What happens after the answer of a condition. -/
def afterAsk (add : M Val U Err (List Val)) (r : Except Err Bool) (s : St Val U) : Except Err (List Val) × St Val U :=
  match r with
  | .error e => (.error e, s)
  | .ok true => add s
  | .ok false => (.ok [], s)

/-- What a comprehension returns after its loop. -/
def afterLoop (R : Runtime Val U Err) (k : Kind) (r : Except Err (List Val)) (s : St Val U) :
    Except Err Val × (String → Option Val) × U :=
  match r with
  | .ok xs => ((R.op (.mk k) xs s.u).1, s.labels, (R.op (.mk k) xs s.u).2)
  | .error e => (.error (if k = .tuple then R.fromGen e else e), s.labels, s.u)

/-- The body of a comprehension when its condition has been asked. -/
theorem asks_body {x : Val} {cond : Conv Val} {hasCond : Bool} {s s1 : St Val U} {r : Except Err Bool}
    (add : M Val U Err (List Val)) (h : Asks R fuel A x (if hasCond then some cond else none) s r s1) :
    (do
      let keep ← if hasCond then (do
          let c ← den R fuel A cond x
          runTruthy R c)
        else pure true
      if keep then add else pure [] : M Val U Err (List Val)) s = afterAsk add r s1 := by
  cases hasCond with
  | false => cases h; rfl
  | true =>
    simp only [if_true] at h ⊢
    rw [bind_run, bind_run]
    cases h with
    | raises h => rw [h]; rfl
    | tests h1 h2 =>
      rw [h1]
      have : ∀ y s, runTruthy R y s = ((R.truthy y s.u).1, { s with u := (R.truthy y s.u).2 }) := fun _ _ => rfl
      dsimp only
      rw [this, h2]
      rcases r with e | _ | _ <;> rfl

theorem adds_run {x : Val} {item value : Conv Val} {k : Kind} {s s1 : St Val U} {r : Except Err (List Val)}
    (h : Adds R fuel A x item value k s r s1) :
    addItem R k none (den R fuel A item x) (den R fuel A value x) s = (r, s1) := by
  cases h with
  | raises h => cases k <;> (simp only [addItem]; rw [bind_run, h])
  | list h => simp only [addItem]; rw [bind_run, h]; rfl
  | tuple h => simp only [addItem]; rw [bind_run, h]; rfl
  | set h h2 => simp only [addItem]; rw [bind_run, h]; dsimp only; rw [op_run, h2]; rfl
  | unhashable h h2 => simp only [addItem]; rw [bind_run, h]; dsimp only; rw [op_run, h2]
  | valueRaises h h2 => simp only [addItem]; rw [bind_run, h]; dsimp only; rw [bind_run, h2]
  | dict h h2 h3 =>
    simp only [addItem]; rw [bind_run, h]; dsimp only; rw [bind_run, h2]; dsimp only; rw [op_run, h3]; rfl
  | unhashableKey h h2 h3 =>
    simp only [addItem]; rw [bind_run, h]; dsimp only; rw [bind_run, h2]; dsimp only; rw [op_run, h3]

/-- With a bound on the number of elements which is not reached, the loop does what the relation says. -/
theorem collects_run {k : Kind} {item value cond : Conv Val} {hasCond : Bool} {it : Val} {n : Nat} {s s' : St Val U}
    {r : Except Err (List Val)}
    (h : Collects R fuel A k item value (if hasCond then some cond else none) it n s r s') :
    ∀ m, n < m → loop R it (fun x => do
      let keep ← if hasCond then (do
          let c ← den R fuel A cond x
          runTruthy R c)
        else pure true
      if keep then addItem R k none (den R fuel A item x) (den R fuel A value x) else pure []) m s = (r, s') := by
  induction h with
  | ends h =>
    intro m hm
    obtain ⟨m, rfl⟩ : ∃ j, m = j + 1 := ⟨m - 1, by omega⟩
    rw [loop, next_run, h]
    rfl
  | breaks h =>
    intro m hm
    obtain ⟨m, rfl⟩ : ∃ j, m = j + 1 := ⟨m - 1, by omega⟩
    rw [loop, next_run, h]
  | condRaises h h1 =>
    intro m hm
    obtain ⟨m, rfl⟩ : ∃ j, m = j + 1 := ⟨m - 1, by omega⟩
    rw [loop, next_run, h]
    dsimp only
    rw [bind_run, asks_body _ h1]
    rfl
  | rejects h h1 _ ih =>
    intro m hm
    obtain ⟨m, rfl⟩ : ∃ j, m = j + 1 := ⟨m - 1, by omega⟩
    rw [loop, next_run, h]
    dsimp only
    rw [bind_run, asks_body _ h1]
    dsimp only [afterAsk]
    rw [bind_run, ih m (by omega)]
    rename_i r _
    cases r <;> rfl
  | itemRaises h h1 h2 =>
    intro m hm
    obtain ⟨m, rfl⟩ : ∃ j, m = j + 1 := ⟨m - 1, by omega⟩
    rw [loop, next_run, h]
    dsimp only
    rw [bind_run, asks_body _ h1]
    dsimp only [afterAsk]
    rw [adds_run h2]
  | accepts h h1 h2 _ ih =>
    intro m hm
    obtain ⟨m, rfl⟩ : ∃ j, m = j + 1 := ⟨m - 1, by omega⟩
    rw [loop, next_run, h]
    dsimp only
    rw [bind_run, asks_body _ h1]
    dsimp only [afterAsk]
    rw [adds_run h2]
    dsimp only
    rw [bind_run, ih m (by omega)]
    rename_i r _
    cases r <;> rfl

/-- C23, whatever conditions and items do: the code of `list_comp`, `tuple_comp`, `set_comp` and `dict_comp` takes one
element after the other, asks its condition, adds its item, and makes the collection of all items in the end; what
raises on the way comes out (of `tuple_comp` as out of a generator). -/
theorem C23_effects (hnone : NoneFalsy R) (hN : NamesOk N) (hvar : ∀ t, VarOk N (var t)) (tp : Bool)
    (ht : tp = true → ∀ v u, ∃ b, R.truthy v u = (.ok b, u)) (k : Kind) (item value : Conv Val)
    (hasCond : Bool) (cond : Conv Val) (hc : (Conv.comp k item value hasCond cond none).ok tp true = true)
    (hfit : ArgsFit N var A (Conv.comp k item value hasCond cond none).args) (data : Val) (s s' : St Val U)
    (it : Val) (u1 : U) (hiter : R.op .iter [data] s.u = (.ok it, u1)) (n : Nat) (r : Except Err (List Val))
    (hrun : Collects R fuel A k item value (if hasCond then some cond else none) it n { s with u := u1 } r s')
    (hfuel : n < fuel) :
    view (converter R fuel N var (.comp k item value hasCond cond none) A data s) =
      afterLoop R k r s' := by
  rw [comp_view hnone hN hvar tp ht hc hfit]
  simp only [den]
  rw [op_run, hiter]
  dsimp only
  have hl := collects_run hrun fuel hfuel
  by_cases hv : viaGen k (none : Option (Lit Val × Bool)) = true
  · rw [if_pos hv, bind_run]
    simp only [inGen, onError]
    rw [hl]
    cases k with
    | tuple => cases r <;> rfl
    | _ => cases hv
  · rw [if_neg hv, bind_run, hl]
    cases k with
    | tuple => exact absurd rfl hv
    | _ => cases r <;> rfl

theorem asks_total (x : Val) (cond : Option (Conv Val)) (s : St Val U) : ∃ r s1, Asks R fuel A x cond s r s1 := by
  cases cond with
  | none => exact ⟨_, _, .all⟩
  | some c =>
    cases h : den R fuel A c x s with
    | mk r s1 =>
      cases r with
      | error e => exact ⟨_, _, .raises h⟩
      | ok y => exact ⟨_, _, .tests h (r := (R.truthy y s1.u).1) (u := (R.truthy y s1.u).2) rfl⟩

theorem adds_total (x : Val) (item value : Conv Val) (k : Kind) (s : St Val U) :
    ∃ r s1, Adds R fuel A x item value k s r s1 := by
  cases h : den R fuel A item x s with
  | mk r s1 =>
    cases r with
    | error e => exact ⟨_, _, .raises h⟩
    | ok a =>
      cases k with
      | list => exact ⟨_, _, .list h⟩
      | tuple => exact ⟨_, _, .tuple h⟩
      | set =>
        cases h2 : R.op .hash [a] s1.u with
        | mk r u =>
          cases r with
          | error e => exact ⟨_, _, .unhashable h h2⟩
          | ok _ => exact ⟨_, _, .set h h2⟩
      | dict =>
        cases h2 : den R fuel A value x s1 with
        | mk r s2 =>
          cases r with
          | error e => exact ⟨_, _, .valueRaises h h2⟩
          | ok b =>
            cases h3 : R.op .hash [a] s2.u with
            | mk r u =>
              cases r with
              | error e => exact ⟨_, _, .unhashableKey h h2 h3⟩
              | ok _ => exact ⟨_, _, .dict h h2 h3⟩

/-- Every run is described by the relation, unless it takes too many elements. -/
theorem collects_total (k : Kind) (item value cond : Conv Val) (hasCond : Bool) (it : Val) :
    ∀ (m : Nat) (s : St Val U),
      (∃ n r s', n < m ∧ Collects R fuel A k item value (if hasCond then some cond else none) it n s r s') ∨
      ∃ s', loop R it (fun x => do
        let keep ← if hasCond then (do
            let c ← den R fuel A cond x
            runTruthy R c)
          else pure true
        if keep then addItem R k none (den R fuel A item x) (den R fuel A value x) else pure []) m s =
        (.error R.diverged, s')
  | 0, s => .inr ⟨s, rfl⟩
  | m + 1, s => by
    cases h : R.next it s.u with
    | mk r u =>
      rcases r with e | _ | x
      · exact .inl ⟨0, _, _, by omega, .breaks h⟩
      · exact .inl ⟨0, _, _, by omega, .ends h⟩
      · obtain ⟨r1, s1, h1⟩ := asks_total (R := R) (fuel := fuel) (A := A) x (if hasCond then some cond else none)
          { s with u := u }
        rcases r1 with e | _ | _
        · exact .inl ⟨0, _, _, by omega, .condRaises h h1⟩
        · rcases collects_total k item value cond hasCond it m s1 with ⟨n, r, s', hn, hc⟩ | ⟨s', hl⟩
          · exact .inl ⟨n + 1, _, _, by omega, .rejects h h1 hc⟩
          · refine .inr ⟨s', ?_⟩
            rw [loop, next_run, h]
            dsimp only
            rw [bind_run, asks_body _ h1]
            dsimp only [afterAsk]
            rw [bind_run, hl]
        · obtain ⟨r2, s2, h2⟩ := adds_total (R := R) (fuel := fuel) (A := A) x item value k s1
          rcases r2 with e | ys
          · exact .inl ⟨0, _, _, by omega, .itemRaises h h1 h2⟩
          · rcases collects_total k item value cond hasCond it m s2 with ⟨n, r, s', hn, hc⟩ | ⟨s', hl⟩
            · exact .inl ⟨n + 1, _, _, by omega, .accepts h h1 h2 hc⟩
            · refine .inr ⟨s', ?_⟩
              rw [loop, next_run, h]
              dsimp only
              rw [bind_run, asks_body _ h1]
              dsimp only [afterAsk]
              rw [adds_run h2]
              dsimp only
              rw [bind_run, hl]

/-! ## Optional items -/

/-- The run of the helper function of a collection with optional items: the items in the order of definition, an
optional one after asking its condition. -/
inductive Fills (R : Runtime Val U Err) (fuel : Nat) (A : Env Val) (k : Kind) (v : Val) :
    List (Conv Val) → St Val U → Except Err (List Val) → St Val U → Prop
  | ends {s : St Val U} : Fills R fuel A k v [] s (.ok []) s
  | plainRaises {c : Conv Val} {cs : List (Conv Val)} {s s1 : St Val U} {e : Err} : c.isOpt = false →
      Adds R fuel A v c c k s (.error e) s1 → Fills R fuel A k v (c :: cs) s (.error e) s1
  | plain {c : Conv Val} {cs : List (Conv Val)} {s s1 s2 : St Val U} {ys : List Val} {r : Except Err (List Val)} :
      c.isOpt = false → Adds R fuel A v c c k s (.ok ys) s1 → Fills R fuel A k v cs s1 r s2 →
      Fills R fuel A k v (c :: cs) s (r.map (ys ++ ·)) s2
  | condRaises {c cond : Conv Val} {cs : List (Conv Val)} {s s1 : St Val U} {e : Err} :
      Asks R fuel A v (some cond) s (.error e) s1 → Fills R fuel A k v (.opt c cond :: cs) s (.error e) s1
  | skip {c cond : Conv Val} {cs : List (Conv Val)} {s s1 s2 : St Val U} {r : Except Err (List Val)} :
      Asks R fuel A v (some cond) s (.ok false) s1 → Fills R fuel A k v cs s1 r s2 →
      Fills R fuel A k v (.opt c cond :: cs) s r s2
  | keepRaises {c cond : Conv Val} {cs : List (Conv Val)} {s s1 s2 : St Val U} {e : Err} :
      Asks R fuel A v (some cond) s (.ok true) s1 → Adds R fuel A v c c k s1 (.error e) s2 →
      Fills R fuel A k v (.opt c cond :: cs) s (.error e) s2
  | keep {c cond : Conv Val} {cs : List (Conv Val)} {s s1 s2 s3 : St Val U} {ys : List Val}
      {r : Except Err (List Val)} :
      Asks R fuel A v (some cond) s (.ok true) s1 → Adds R fuel A v c c k s1 (.ok ys) s2 →
      Fills R fuel A k v cs s2 r s3 → Fills R fuel A k v (.opt c cond :: cs) s (r.map (ys ++ ·)) s3

theorem asks_some {x : Val} {cond : Conv Val} {s s1 : St Val U} {r : Except Err Bool}
    (h : Asks R fuel A x (some cond) s r s1) :
    (den R fuel A cond x >>= fun y => runTruthy R y : M Val U Err Bool) s = (r, s1) := by
  rw [bind_run]
  cases h with
  | raises h => rw [h]
  | tests h1 h2 =>
    rw [h1]
    have : ∀ y s, runTruthy R y s = ((R.truthy y s.u).1, { s with u := (R.truthy y s.u).2 }) := fun _ _ => rfl
    dsimp only
    rw [this, h2]

theorem adds_single {x : Val} {c : Conv Val} {k : Kind} (hk : k ≠ .dict) {s s1 : St Val U}
    {r : Except Err (List Val)} (h : Adds R fuel A x c c k s r s1) (m : M Val U Err Val) :
    addItem R k none (den R fuel A c x) m s = (r, s1) := by
  rw [← adds_run h]
  cases k with
  | dict => exact absurd rfl hk
  | _ => rfl

theorem bind_assoc_run {α β γ : Type} (m : M Val U Err α) (f : α → M Val U Err β) (g : β → M Val U Err γ)
    (s : St Val U) : (m >>= fun x => f x >>= g) s = ((m >>= f) >>= g) s := by
  simp only [bind_run]
  cases h : m s with
  | mk r s1 => cases r <;> rfl

theorem fills_run {k : Kind} (hk : k ≠ .dict) {v : Val} {cs : List (Conv Val)} {s s' : St Val U}
    {r : Except Err (List Val)} (h : Fills R fuel A k v cs s r s') : denOpt R fuel A k cs v s = (r, s') := by
  induction h with
  | ends => rfl
  | plainRaises hc h1 => rw [denOpt_plain k hc, bind_run, adds_single hk h1]
  | plain hc h1 _ ih =>
    rw [denOpt_plain k hc, bind_run, adds_single hk h1]
    dsimp only
    rw [bind_run, ih]
    rename_i r _
    cases r <;> rfl
  | condRaises h1 => rw [denOpt.eq_2, bind_assoc_run, bind_run, asks_some h1]
  | skip h1 _ ih =>
    rw [denOpt.eq_2, bind_assoc_run, bind_run, asks_some h1]
    simp only [Bool.false_eq_true, if_false]
    rw [pure_bind', bind_run, ih]
    rename_i r _
    cases r <;> rfl
  | keepRaises h1 h2 =>
    rw [denOpt.eq_2, bind_assoc_run, bind_run, asks_some h1]
    simp only [if_true]
    rw [bind_run, adds_single hk h2]
  | keep h1 h2 _ ih =>
    rw [denOpt.eq_2, bind_assoc_run, bind_run, asks_some h1]
    simp only [if_true]
    rw [bind_run, adds_single hk h2]
    dsimp only
    rw [bind_run, ih]
    rename_i r _
    cases r <;> rfl

/-- What a collection made by a generator returns. -/
def afterFill (R : Runtime Val U Err) (k : Kind) (r : Except Err (List Val)) (s : St Val U) :
    Except Err Val × (String → Option Val) × U :=
  match r with
  | .ok xs => ((R.op (.mk k) xs s.u).1, s.labels, (R.op (.mk k) xs s.u).2)
  | .error e => (.error (R.fromGen e), s.labels, s.u)

/-- C22 for lists, tuples and sets, whatever conditions and items do: the items are computed in the order of
definition, each optional one after its condition and only if this holds; the collection of them is made in the
end, and what raises on the way comes out as out of a generator. -/
theorem C22_effects (hnone : NoneFalsy R) (hN : NamesOk N) (hvar : ∀ t, VarOk N (var t)) (tp : Bool)
    (ht : tp = true → ∀ v u, ∃ b, R.truthy v u = (.ok b, u)) (k : Kind) (hk : k ≠ .dict) (cs : List (Conv Val))
    (hopt : ∃ c ∈ cs, c.isOpt = true)
    (hc : (Conv.coll k cs).ok tp true = true) (hfit : ArgsFit N var A (Conv.coll k cs).args) (data : Val)
    (s s' : St Val U) (r : Except Err (List Val)) (hrun : Fills R fuel A k data cs s r s') :
    view (converter R fuel N var (.coll k cs) A data s) = afterFill R k r s' := by
  rw [C13_checked_partial hnone hN hvar tp ht (.coll k cs)
    (by intro d hd; simp only [stages, List.mem_singleton] at hd; subst hd; exact hc) hfit]
  simp only [den]
  rw [if_pos (List.any_eq_true.2 hopt), bind_run]
  simp only [inGen, onError]
  rw [fills_run hk hrun]
  cases r <;> rfl

section
open Toy

/-- `c.list_comp(inc(c.this())).filter(c.this() > 1)` logs a call for each element kept. -/
example (l : String → Option V) (ca : List Nat → Option V) (log : List String) (h : List (List (V × V))) :
    view (converter Toy.R 100 Toy.N Toy.var (.comp .list (.call (.naive (.obj (.fn "inc"))) [.this] []) .this true
      (.bin .gt .this (.naive (.int 1))) none) noArgs (.list [.int 5, .int 0]) ⟨l, ca, ⟨log, [], h⟩⟩) =
    (.ok (.list [.int 6]), l, ⟨log ++ ["inc"], [[]], h⟩) := by
  rw [C23_effects (fuel := 100) noneFalsy namesOk varOk false (by simp) .list _ _ true _ (by rfl) noFit
    (.list [.int 5, .int 0]) ⟨l, ca, ⟨log, [], h⟩⟩ _ (.it 0) _ rfl 2 _
    (.accepts rfl (.tests rfl rfl) (.list rfl) (.rejects rfl (.tests rfl rfl) (.ends rfl))) (by decide)]
  rfl

/-- The first item raises: the second one is not computed. -/
example (s : St V World) : (view (converter Toy.R 100 Toy.N Toy.var (.coll .list
    [.opt (.call (.naive (.obj (.fn "inc"))) [.naive (.str "x")] []) (.naive (.bool true)),
      .call (.naive (.obj (.fn "inc"))) [.this] []]) noArgs (.int 0) s)).2.2.log = s.u.log ++ ["inc"] := by
  rw [C22_effects (fuel := 100) noneFalsy namesOk varOk false (by simp) .list (by simp) _ ⟨_, List.mem_cons_self .., rfl⟩
    (by rfl) noFit (.int 0) s _ _ (.keepRaises (.tests rfl rfl) (.raises rfl))]
  rfl

end

end

end Verif.Expr
