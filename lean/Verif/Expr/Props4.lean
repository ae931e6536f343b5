import Verif.Expr.Props3
import Verif.Agg.Group

/-!
# C23, C24: comprehensions
-/

set_option autoImplicit false

namespace Verif.Expr

section
variable {Val U Err : Type} {R : Runtime Val U Err} {fuel : Nat} {N : Names Val} {A : Env Val}
  {var : String → String}

/-- The iterator gives the items `xs`, one after another, and takes the state from `u` to `u'`. -/
inductive Steps (R : Runtime Val U Err) (it : Val) : U → List Val → U → Prop
  | nil (u : U) : Steps R it u [] u
  | cons {u u1 u' : U} {x : Val} {xs : List Val} : R.next it u = (.ok (some x), u1) → Steps R it u1 xs u' →
      Steps R it u (x :: xs) u'

/-- `data` can be iterated: its iterator gives the items `xs` and then ends. -/
def Iterates (R : Runtime Val U Err) (data : Val) (u : U) (xs : List Val) (u' : U) : Prop :=
  ∃ it u1 u2, R.op .iter [data] u = (.ok it, u1) ∧ Steps R it u1 xs u2 ∧ R.next it u2 = (.ok none, u')

/-- The filter of a comprehension: `p x` tells if `x` passes; without a filter everything does. -/
def Passes (R : Runtime Val U Err) (fuel : Nat) (A : Env Val) (hasCond : Bool) (cond : Conv Val) (x : Val)
    (b : Bool) : Prop :=
  if hasCond then Holds R fuel A cond x b else b = true

theorem loop_steps {it : Val} {body : Val → M Val U Err (List Val)} {f : Val → List Val} {n : Nat} :
    ∀ {u u' : U} {xs : List Val}, Steps R it u xs u' → (∀ x ∈ xs, ∀ s, body x s = (.ok (f x), s)) →
    ∀ s : St Val U, s.u = u → loop R it body (xs.length + n) s =
      match loop R it body n { s with u := u' } with
      | (.ok ys, s') => (.ok (xs.flatMap f ++ ys), s')
      | (.error e, s') => (.error e, s') := by
  intro u u' xs h
  induction h with
  | nil u =>
    intro _ s hs
    subst hs
    simp only [List.length_nil, Nat.zero_add, List.flatMap_nil, List.nil_append]
    cases loop R it body n s with
    | mk r s' => cases r <;> rfl
  | cons hx _ ih =>
    rename_i u u1 u' x xs _
    intro hb s hs
    subst hs
    rw [show (x :: xs).length + n = (xs.length + n) + 1 by simp only [List.length_cons]; omega, loop, next_run, hx]
    dsimp only
    rw [bind_run, hb x (by simp)]
    dsimp only
    rw [bind_run, ih (fun y hy => hb y (by simp [hy])) _ rfl]
    dsimp only
    cases loop R it body n { s with u := u' } with
    | mk r s' =>
      cases r with
      | error e => rfl
      | ok ys =>
        dsimp only
        rw [List.flatMap_cons, List.append_assoc]
        rfl

/-- The body of a comprehension. -/
theorem body_run (k : Kind) (sort : Option (Lit Val × Bool)) (item value : Conv Val) (hasCond : Bool)
    (cond : Conv Val) (x : Val) (b : Bool) (hp : Passes R fuel A hasCond cond x b) (ys : List Val)
    (hadd : b = true → ∀ s, addItem R k sort (den R fuel A item x) (den R fuel A value x) s = (.ok ys, s))
    (s : St Val U) :
    (do
      let keep ← if hasCond then (do
          let c ← den R fuel A cond x
          runTruthy R c)
        else pure true
      if keep then addItem R k sort (den R fuel A item x) (den R fuel A value x) else pure [] :
        M Val U Err (List Val)) s = (.ok (if b then ys else []), s) := by
  unfold Passes at hp
  cases hasCond with
  | false =>
    simp only [Bool.false_eq_true, if_false] at hp ⊢
    subst hp
    exact hadd rfl s
  | true =>
    simp only [if_true] at hp ⊢
    obtain ⟨y, hy, ht⟩ := hp
    rw [bind_run, bind_run, hy s]
    dsimp only
    rw [runTruthy_of ht s]
    dsimp only
    cases b with
    | true => simp only [if_true]; exact hadd rfl s
    | false => rfl

theorem flatMap_ite (p : Val → Bool) (f : Val → List Val) (xs : List Val) :
    xs.flatMap (fun x => if p x then f x else []) = (xs.filter p).flatMap f := by
  induction xs with
  | nil => rfl
  | cons x xs ih =>
    rw [List.flatMap_cons, ih, List.filter_cons]
    split <;> simp

theorem flatMap_one (f : Val → Val) (xs : List Val) : xs.flatMap (fun x => [f x]) = xs.map f := by
  induction xs with
  | nil => rfl
  | cons x xs ih => rw [List.flatMap_cons, ih]; rfl

/-- A comprehension over an iterable whose items, filter and item conversion are free of effects. -/
theorem den_comp (k : Kind) (sort : Option (Lit Val × Bool)) (item value : Conv Val) (hasCond : Bool)
    (cond : Conv Val) (data : Val) (s : St Val U) (xs : List Val) (u' : U) (hit : Iterates R data s.u xs u')
    (hfuel : xs.length < fuel) (p : Val → Bool) (hp : ∀ x ∈ xs, Passes R fuel A hasCond cond x (p x))
    (f : Val → List Val) (hf : ∀ x ∈ xs, p x = true → ∀ s : St Val U,
      addItem R k sort (den R fuel A item x) (den R fuel A value x) s = (.ok (f x), s)) :
    den R fuel A (.comp k item value hasCond cond sort) data s =
      finish R k sort ((xs.filter p).flatMap f) { s with u := u' } := by
  obtain ⟨it, u1, u2, h1, h2, h3⟩ := hit
  simp only [den]
  rw [op_run, h1]
  dsimp only
  have hloop : loop R it (fun x => do
      let keep ← if hasCond then (do
          let c ← den R fuel A cond x
          runTruthy R c)
        else pure true
      if keep then addItem R k sort (den R fuel A item x) (den R fuel A value x) else pure []) fuel
      { s with u := u1 } = (.ok ((xs.filter p).flatMap f), { s with u := u' }) := by
    obtain ⟨n, hn⟩ : ∃ n, fuel = xs.length + (n + 1) := ⟨fuel - xs.length - 1, by omega⟩
    have hl := loop_steps (n := n + 1) (s := { s with u := u1 }) (f := fun x => if p x then f x else []) h2
      (fun x hx s => body_run k sort item value hasCond cond x (p x) (hp x hx) (f x) (hf x hx) s) rfl
    rw [← hn] at hl
    rw [hl]
    rw [loop, next_run, h3]
    simp only [pure, List.append_nil]
    rw [flatMap_ite]
  by_cases hv : viaGen k sort = true
  · rw [if_pos hv, bind_run]
    simp only [inGen, onError]
    rw [hloop]
  · rw [if_neg hv, bind_run, hloop]

theorem comp_view (hnone : NoneFalsy R) (hN : NamesOk N) (hvar : ∀ t, VarOk N (var t)) (tp : Bool)
    (ht : tp = true → ∀ v u, ∃ b, R.truthy v u = (.ok b, u)) {k : Kind} {item value : Conv Val} {hasCond : Bool}
    {cond : Conv Val} {sort : Option (Lit Val × Bool)} (hc : (Conv.comp k item value hasCond cond sort).ok tp true = true)
    (hfit : ArgsFit N var A (Conv.comp k item value hasCond cond sort).args) (data : Val) (s : St Val U) :
    view (converter R fuel N var (.comp k item value hasCond cond sort) A data s) =
      view (den R fuel A (.comp k item value hasCond cond sort) data s) :=
  C13_checked_partial hnone hN hvar tp ht _
    (by intro d hd; simp only [stages, List.mem_singleton] at hd; subst hd; exact hc) hfit data s

/-- C23 (partial: filter and item conversion without effects): the code of `list_comp`, `tuple_comp` and `set_comp`
builds the collection of the item conversion applied to exactly the items passing the filter, in order. -/
theorem C23_items_partial (hnone : NoneFalsy R) (hN : NamesOk N) (hvar : ∀ t, VarOk N (var t)) (tp : Bool)
    (ht : tp = true → ∀ v u, ∃ b, R.truthy v u = (.ok b, u)) (k : Kind) (hk : k ≠ .dict) (item value : Conv Val)
    (hasCond : Bool) (cond : Conv Val) (hc : (Conv.comp k item value hasCond cond none).ok tp true = true)
    (hfit : ArgsFit N var A (Conv.comp k item value hasCond cond none).args) (data : Val) (s : St Val U)
    (xs : List Val) (u' : U) (hit : Iterates R data s.u xs u') (hfuel : xs.length < fuel)
    (p : Val → Bool) (hp : ∀ x ∈ xs, Passes R fuel A hasCond cond x (p x))
    (f : Val → Val) (hf : ∀ x ∈ xs, p x = true → Gives R fuel A item x (f x))
    (hh : k = .set → ∀ x ∈ xs, p x = true → Hashable R (f x)) :
    view (converter R fuel N var (.comp k item value hasCond cond none) A data s) =
      ((R.op (.mk k) ((xs.filter p).map f) u').1, s.labels, (R.op (.mk k) ((xs.filter p).map f) u').2) := by
  rw [comp_view hnone hN hvar tp ht hc hfit, den_comp k none item value hasCond cond data s xs u' hit hfuel p hp
    (fun x => [f x]) (fun x hx hpx s => addItem_one hk (fun h => hh h x hx hpx) s (hf x hx hpx s) none)]
  rw [flatMap_one]
  rfl

/-- C23 (partial: filter, key and value conversions without effects): the code of `dict_comp` builds the dict of the
pairs of the items passing the filter, in order. -/
theorem C23_pairs_partial (hnone : NoneFalsy R) (hN : NamesOk N) (hvar : ∀ t, VarOk N (var t)) (tp : Bool)
    (ht : tp = true → ∀ v u, ∃ b, R.truthy v u = (.ok b, u)) (key value : Conv Val)
    (hasCond : Bool) (cond : Conv Val) (hc : (Conv.comp .dict key value hasCond cond none).ok tp true = true)
    (hfit : ArgsFit N var A (Conv.comp .dict key value hasCond cond none).args) (data : Val) (s : St Val U)
    (xs : List Val) (u' : U) (hit : Iterates R data s.u xs u') (hfuel : xs.length < fuel)
    (p : Val → Bool) (hp : ∀ x ∈ xs, Passes R fuel A hasCond cond x (p x))
    (f g : Val → Val) (hf : ∀ x ∈ xs, p x = true → Gives R fuel A key x (f x))
    (hg : ∀ x ∈ xs, p x = true → Gives R fuel A value x (g x))
    (hh : ∀ x ∈ xs, p x = true → Hashable R (f x)) :
    view (converter R fuel N var (.comp .dict key value hasCond cond none) A data s) =
      ((R.op (.mk .dict) (flat ((xs.filter p).map (fun x => (f x, g x)))) u').1, s.labels,
        (R.op (.mk .dict) (flat ((xs.filter p).map (fun x => (f x, g x)))) u').2) := by
  rw [comp_view hnone hN hvar tp ht hc hfit, den_comp .dict none key value hasCond cond data s xs u' hit hfuel p hp
    (fun x => [f x, g x]) (fun x hx hpx s => addItem_pair (hh x hx hpx) s (hf x hx hpx s) (hg x hx hpx s))]
  rw [show (xs.filter p).flatMap (fun x => [f x, g x]) = flat ((xs.filter p).map (fun x => (f x, g x))) by
    simp [flat, List.flatMap_map]]
  rfl

/-- Python builds a dict by inserting the pairs one by one. -/
def insertAll [BEq Val] (ps : List (Val × Val)) : List (Val × Val) :=
  ps.foldl (fun d p => Dict.set d p.1 p.2) []

theorem insertAll_snoc [BEq Val] (ps : List (Val × Val)) (p : Val × Val) :
    insertAll (ps ++ [p]) = Dict.set (insertAll ps) p.1 p.2 := by
  simp [insertAll, List.foldl_append]

theorem snoc_induction {α : Type} {P : List α → Prop} (h0 : P []) (h1 : ∀ l a, P l → P (l ++ [a])) (l : List α) :
    P l := by
  have : ∀ l : List α, P l.reverse := by
    intro l
    induction l with
    | nil => exact h0
    | cons a l ih => rw [List.reverse_cons]; exact h1 _ _ ih
  simpa using this l.reverse

theorem insertAll_keys [BEq Val] [EquivBEq Val] (ps : List (Val × Val)) :
    Dict.keys (insertAll ps) = Agg.firstSeen (ps.map Prod.fst) := by
  induction ps using snoc_induction with
  | h0 => rfl
  | h1 ps p ih =>
    rw [insertAll_snoc, List.map_append]
    exact Agg.keys_set_firstSeen _ _ _ _ ih

theorem insertAll_get? [BEq Val] [EquivBEq Val] (ps : List (Val × Val)) (k : Val) :
    Dict.get? (insertAll ps) k = ((ps.filter (fun p => p.1 == k)).getLast?).map Prod.snd := by
  induction ps using snoc_induction with
  | h0 => rfl
  | h1 ps p ih =>
    rw [insertAll_snoc, Dict.get?_set, ih, List.filter_append]
    by_cases h : (p.1 == k) = true
    · simp [h]
    · simp [h]

/-- C23 (partial: filter, key and value conversions without effects): `dict_comp` maps each key to the value of the
last item producing it, keys in order of first appearance; dicts are built by inserting the pairs one by one. -/
theorem C23_dict_partial [BEq Val] [EquivBEq Val] (hnone : NoneFalsy R) (hN : NamesOk N) (hvar : ∀ t, VarOk N (var t))
    (tp : Bool) (ht : tp = true → ∀ v u, ∃ b, R.truthy v u = (.ok b, u)) (key value : Conv Val)
    (hasCond : Bool) (cond : Conv Val) (hc : (Conv.comp .dict key value hasCond cond none).ok tp true = true)
    (hfit : ArgsFit N var A (Conv.comp .dict key value hasCond cond none).args) (data : Val) (s : St Val U)
    (xs : List Val) (u' : U) (hit : Iterates R data s.u xs u') (hfuel : xs.length < fuel)
    (p : Val → Bool) (hp : ∀ x ∈ xs, Passes R fuel A hasCond cond x (p x))
    (f g : Val → Val) (hf : ∀ x ∈ xs, p x = true → Gives R fuel A key x (f x))
    (hg : ∀ x ∈ xs, p x = true → Gives R fuel A value x (g x))
    (hh : ∀ x ∈ xs, p x = true → Hashable R (f x)) (ofDict : List (Val × Val) → Val)
    (hmk : ∀ ps u, R.op (.mk .dict) (flat ps) u = (.ok (ofDict (insertAll ps)), u)) :
    ∃ d : List (Val × Val),
      view (converter R fuel N var (.comp .dict key value hasCond cond none) A data s) = (.ok (ofDict d), s.labels, u') ∧
      Dict.keys d = Agg.firstSeen ((xs.filter p).map f) ∧
      ∀ k, Dict.get? d k = (((xs.filter p).filter (fun x => f x == k)).getLast?).map g := by
  refine ⟨insertAll ((xs.filter p).map (fun x => (f x, g x))), ?_, ?_, ?_⟩
  · rw [C23_pairs_partial hnone hN hvar tp ht key value hasCond cond hc hfit data s xs u' hit hfuel p hp f g hf hg hh,
      hmk]
  · rw [insertAll_keys, List.map_map]
    rfl
  · intro k
    rw [insertAll_get?, List.filter_map, List.getLast?_map, Option.map_map]
    rfl

/-- C23: an exception raised by the item conversion on an item passing the filter ends the comprehension at that
item; from within a generator (`tuple_comp`) it comes out as from any generator. -/
theorem C23_raises (hnone : NoneFalsy R) (hN : NamesOk N) (hvar : ∀ t, VarOk N (var t)) (tp : Bool)
    (ht : tp = true → ∀ v u, ∃ b, R.truthy v u = (.ok b, u)) (k : Kind) (item value : Conv Val)
    (hasCond : Bool) (cond : Conv Val) (hc : (Conv.comp k item value hasCond cond none).ok tp true = true)
    (hfit : ArgsFit N var A (Conv.comp k item value hasCond cond none).args) (data : Val) (s : St Val U)
    (it : Val) (u1 u2 u3 : U) (xs : List Val) (y : Val) (hiter : R.op .iter [data] s.u = (.ok it, u1))
    (hsteps : Steps R it u1 xs u2) (hy : R.next it u2 = (.ok (some y), u3)) (hfuel : xs.length < fuel)
    (p : Val → Bool) (hp : ∀ x ∈ xs, Passes R fuel A hasCond cond x (p x))
    (f : Val → List Val) (hf : ∀ x ∈ xs, p x = true → ∀ s : St Val U,
      addItem R k none (den R fuel A item x) (den R fuel A value x) s = (.ok (f x), s))
    (hpy : Passes R fuel A hasCond cond y true) (e : Err) (s' : St Val U)
    (herr : den R fuel A item y { s with u := u3 } = (.error e, s')) :
    view (converter R fuel N var (.comp k item value hasCond cond none) A data s) =
      (.error (if k = .tuple then R.fromGen e else e), s'.labels, s'.u) := by
  rw [comp_view hnone hN hvar tp ht hc hfit]
  have hadd : addItem R k none (den R fuel A item y) (den R fuel A value y) { s with u := u3 } = (.error e, s') := by
    cases k <;> (simp only [addItem]; rw [bind_run, herr])
  have hbody : (do
      let keep ← if hasCond then (do
          let c ← den R fuel A cond y
          runTruthy R c)
        else pure true
      if keep then addItem R k none (den R fuel A item y) (den R fuel A value y) else pure [] :
        M Val U Err (List Val)) { s with u := u3 } = (.error e, s') := by
    unfold Passes at hpy
    cases hasCond with
    | false => exact hadd
    | true =>
      simp only [if_true] at hpy ⊢
      obtain ⟨z, hz, htz⟩ := hpy
      rw [bind_run, bind_run, hz]
      dsimp only
      rw [runTruthy_of htz]
      exact hadd
  have hloop : loop R it (fun x => do
      let keep ← if hasCond then (do
          let c ← den R fuel A cond x
          runTruthy R c)
        else pure true
      if keep then addItem R k none (den R fuel A item x) (den R fuel A value x) else pure []) fuel
      { s with u := u1 } = (.error e, s') := by
    obtain ⟨n, hn⟩ : ∃ n, fuel = xs.length + (n + 1) := ⟨fuel - xs.length - 1, by omega⟩
    have hl := loop_steps (n := n + 1) (s := { s with u := u1 }) (f := fun x => if p x then f x else []) hsteps
      (fun x hx s => body_run k none item value hasCond cond x (p x) (hp x hx) (f x) (hf x hx) s) rfl
    rw [← hn] at hl
    rw [hl, loop, next_run, hy]
    dsimp only
    rw [bind_run, hbody]
  simp only [den]
  rw [op_run, hiter]
  dsimp only
  by_cases hv : viaGen k (none : Option (Lit Val × Bool)) = true
  · rw [if_pos hv, bind_run]
    simp only [inGen, onError]
    rw [hloop]
    cases k with
    | tuple => rfl
    | _ => cases hv
  · rw [if_neg hv, bind_run, hloop]
    cases k with
    | tuple => exact absurd rfl hv
    | _ => rfl

/-! ## C24: sorted comprehensions -/

/-- C24 (partial: filter and item conversion without effects): a sorted `list_comp` gives a stable sort of the items
of the unsorted one.  Python's `sorted` is `pySorted` for the order `lt` of the keys. -/
theorem C24_list_partial (hnone : NoneFalsy R) (hN : NamesOk N) (hvar : ∀ t, VarOk N (var t)) (tp : Bool)
    (ht : tp = true → ∀ v u, ∃ b, R.truthy v u = (.ok b, u)) (item value : Conv Val)
    (hasCond : Bool) (cond : Conv Val) (key : Lit Val) (rev : Bool)
    (hc : (Conv.comp .list item value hasCond cond (some (key, rev))).ok tp true = true)
    (hfit : ArgsFit N var A (Conv.comp .list item value hasCond cond (some (key, rev))).args) (data : Val)
    (s : St Val U) (xs : List Val) (u' : U) (hit : Iterates R data s.u xs u') (hfuel : xs.length < fuel)
    (p : Val → Bool) (hp : ∀ x ∈ xs, Passes R fuel A hasCond cond x (p x))
    (f : Val → Val) (hf : ∀ x ∈ xs, p x = true → Gives R fuel A item x (f x))
    (lt : Val → Val → Bool) (hlt : PySort.WeakOrder lt) (ofList : List Val → Val)
    (hsort : ∀ ys u, R.op .sorted (R.lit key :: R.bool rev :: ys) u = (.ok (ofList (PySort.pySorted lt rev ys)), u)) :
    ∃ r, view (converter R fuel N var (.comp .list item value hasCond cond (some (key, rev))) A data s) =
        (.ok (ofList r), s.labels, u') ∧ PySort.SortOf lt rev ((xs.filter p).map f) r := by
  refine ⟨_, ?_, PySort.pySorted_ok hlt rev _⟩
  rw [comp_view hnone hN hvar tp ht hc hfit, den_comp .list _ item value hasCond cond data s xs u' hit hfuel p hp
    (fun x => [f x]) (fun x hx hpx s => addItem_one (by simp) (by simp) s (hf x hx hpx s) _)]
  rw [flatMap_one]
  simp only [finish]
  rw [op_run, hsort]
  rfl

/-- C24 (partial: filter and item conversion without effects): the same for `tuple_comp`. -/
theorem C24_tuple_partial (hnone : NoneFalsy R) (hN : NamesOk N) (hvar : ∀ t, VarOk N (var t)) (tp : Bool)
    (ht : tp = true → ∀ v u, ∃ b, R.truthy v u = (.ok b, u)) (item value : Conv Val)
    (hasCond : Bool) (cond : Conv Val) (key : Lit Val) (rev : Bool)
    (hc : (Conv.comp .tuple item value hasCond cond (some (key, rev))).ok tp true = true)
    (hfit : ArgsFit N var A (Conv.comp .tuple item value hasCond cond (some (key, rev))).args) (data : Val)
    (s : St Val U) (xs : List Val) (u' : U) (hit : Iterates R data s.u xs u') (hfuel : xs.length < fuel)
    (p : Val → Bool) (hp : ∀ x ∈ xs, Passes R fuel A hasCond cond x (p x))
    (f : Val → Val) (hf : ∀ x ∈ xs, p x = true → Gives R fuel A item x (f x))
    (lt : Val → Val → Bool) (hlt : PySort.WeakOrder lt) (ofList ofTuple : List Val → Val)
    (hsort : ∀ ys u, R.op .sorted (R.lit key :: R.bool rev :: ys) u = (.ok (ofList (PySort.pySorted lt rev ys)), u))
    (htuple : ∀ ys u, R.op .toTuple [ofList ys] u = (.ok (ofTuple ys), u)) :
    ∃ r, view (converter R fuel N var (.comp .tuple item value hasCond cond (some (key, rev))) A data s) =
        (.ok (ofTuple r), s.labels, u') ∧ PySort.SortOf lt rev ((xs.filter p).map f) r := by
  refine ⟨_, ?_, PySort.pySorted_ok hlt rev _⟩
  rw [comp_view hnone hN hvar tp ht hc hfit, den_comp .tuple _ item value hasCond cond data s xs u' hit hfuel p hp
    (fun x => [f x]) (fun x hx hpx s => addItem_one (by simp) (by simp) s (hf x hx hpx s) _)]
  rw [flatMap_one]
  simp only [finish]
  rw [op_run, hsort]
  dsimp only
  rw [op_last, htuple]
  rfl

/-- Pairs with different keys, inserted one by one, are the items of the dict. -/
theorem insertAll_nodup [BEq Val] [EquivBEq Val] (ps : List (Val × Val))
    (h : (ps.map Prod.fst).Pairwise (fun a b => (a == b) = false)) : insertAll ps = ps := by
  induction ps using snoc_induction with
  | h0 => rfl
  | h1 ps p ih =>
    rw [List.map_append, List.pairwise_append] at h
    rw [insertAll_snoc, ih h.1]
    refine Dict.set_of_not_has _ _ _ ?_
    cases hh : Dict.has ps p.1 with
    | false => rfl
    | true =>
      obtain ⟨a, ha, hak⟩ := (Dict.get?_isSome_iff ps p.1).1 hh
      rw [h.2.2 a ha p.1 (by simp)] at hak
      cases hak

theorem perm_map {α β : Type} (f : α → β) : ∀ {ys : List β} {xs : List α}, ys.Perm (xs.map f) →
    ∃ zs : List α, zs.Perm xs ∧ ys = zs.map f := by
  intro ys xs h
  generalize hm : xs.map f = ms at h
  induction h generalizing xs with
  | nil => exact ⟨[], by cases xs <;> simp_all, rfl⟩
  | cons b _ ih =>
    cases xs with
    | nil => cases hm
    | cons a xs =>
      simp only [List.map_cons, List.cons.injEq] at hm
      obtain ⟨zs, h1, h2⟩ := ih hm.2
      exact ⟨a :: zs, h1.cons a, by rw [h2, List.map_cons, hm.1]⟩
  | swap b c l =>
    cases xs with
    | nil => cases hm
    | cons a xs =>
      cases xs with
      | nil => simp at hm
      | cons a' xs =>
        simp only [List.map_cons, List.cons.injEq] at hm
        exact ⟨a' :: a :: xs, List.Perm.swap _ _ _, by simp [hm.1, hm.2.1, hm.2.2]⟩
  | trans _ _ ih1 ih2 =>
    obtain ⟨zs, h1, h2⟩ := ih2 hm
    obtain ⟨ws, h3, h4⟩ := ih1 h2.symm
    exact ⟨ws, h3.trans h1, h4⟩

/-- C24 (partial: filter, key and value conversions without effects, and different keys; see
`C24_refuted_dict`): the items of a sorted `dict_comp` are a stable sort of the pairs. -/
theorem C24_dict_partial [BEq Val] [EquivBEq Val] (hnone : NoneFalsy R) (hN : NamesOk N) (hvar : ∀ t, VarOk N (var t))
    (tp : Bool) (ht : tp = true → ∀ v u, ∃ b, R.truthy v u = (.ok b, u)) (key value : Conv Val)
    (hasCond : Bool) (cond : Conv Val) (skey : Lit Val) (rev : Bool)
    (hc : (Conv.comp .dict key value hasCond cond (some (skey, rev))).ok tp true = true)
    (hfit : ArgsFit N var A (Conv.comp .dict key value hasCond cond (some (skey, rev))).args) (data : Val)
    (s : St Val U) (xs : List Val) (u' : U) (hit : Iterates R data s.u xs u') (hfuel : xs.length < fuel)
    (p : Val → Bool) (hp : ∀ x ∈ xs, Passes R fuel A hasCond cond x (p x))
    (f g : Val → Val) (hf : ∀ x ∈ xs, p x = true → Gives R fuel A key x (f x))
    (hg : ∀ x ∈ xs, p x = true → Gives R fuel A value x (g x))
    (hkeys : ((xs.filter p).map f).Pairwise (fun a b => (a == b) = false))
    (lt : Val → Val → Bool) (hlt : PySort.WeakOrder lt) (ofList : List Val → Val) (pair : Val × Val → Val)
    (ofDict : List (Val × Val) → Val)
    (hpair : ∀ x y u, R.op (.mk .tuple) [x, y] u = (.ok (pair (x, y)), u))
    (hsort : ∀ ys u, R.op .sorted (R.lit skey :: R.bool rev :: ys) u = (.ok (ofList (PySort.pySorted lt rev ys)), u))
    (hdict : ∀ ps u, R.op .orderedDict [ofList (ps.map pair)] u = (.ok (ofDict (insertAll ps)), u)) :
    ∃ d, view (converter R fuel N var (.comp .dict key value hasCond cond (some (skey, rev))) A data s) =
        (.ok (ofDict d), s.labels, u') ∧ d.Perm ((xs.filter p).map (fun x => (f x, g x))) ∧
      PySort.SortOf lt rev (((xs.filter p).map (fun x => (f x, g x))).map pair) (d.map pair) := by
  have hs := PySort.pySorted_ok hlt rev (((xs.filter p).map (fun x => (f x, g x))).map pair)
  obtain ⟨d, hd, he⟩ := perm_map pair hs.perm
  rw [he] at hs
  refine ⟨d, ?_, hd, hs⟩
  rw [comp_view hnone hN hvar tp ht hc hfit, den_comp .dict _ key value hasCond cond data s xs u' hit hfuel p hp
    (fun x => [pair (f x, g x)]) (fun x hx hpx s => by
      simp only [addItem]
      rw [bind_run, hf x hx hpx s]
      dsimp only
      rw [bind_run, hg x hx hpx s]
      dsimp only
      rw [op_run, hpair]
      rfl)]
  rw [flatMap_one (fun x => pair (f x, g x)), show (xs.filter p).map (fun x => pair (f x, g x)) =
    ((xs.filter p).map (fun x => (f x, g x))).map pair by rw [List.map_map]; rfl]
  simp only [finish]
  rw [op_run, hsort, he]
  dsimp only
  rw [op_last, hdict, insertAll_nodup]
  · rfl
  · have hperm : (d.map Prod.fst).Perm ((xs.filter p).map f) := by
      have := hd.map Prod.fst
      rwa [List.map_map] at this
    refine (hperm.pairwise_iff ?_).2 hkeys
    intro a b hab
    cases hba : b == a with
    | false => rfl
    | true => rw [BEq.symm hba] at hab; cases hab

section
open Toy

/-- Iterating a list in the concrete runtime, from any state. -/
theorem toy_steps (w : World) (ys : List V) : ∀ (xs : List V),
    Steps Toy.R (.it w.iters.length) { w with iters := w.iters ++ [xs ++ ys] } xs { w with iters := w.iters ++ [ys] }
  | [] => .nil _
  | x :: xs => by
    refine .cons (u1 := { w with iters := w.iters ++ [xs ++ ys] }) ?_ (toy_steps w ys xs)
    simp [Toy.R, Toy.next, List.getElem?_append]

theorem toy_iterates (w : World) (xs : List V) :
    Iterates Toy.R (.list xs) w xs { w with iters := w.iters ++ [[]] } := by
  refine ⟨.it w.iters.length, { w with iters := w.iters ++ [xs] }, { w with iters := w.iters ++ [[]] }, rfl, ?_, ?_⟩
  · have := toy_steps w [] xs
    rwa [List.append_nil] at this
  · simp [Toy.R, Toy.next, List.getElem?_append]

/-- `c.list_comp(c.this() + 1).filter(c.this() > 1)` on any list of integers in any state. -/
example (is : List Int) (h : is.length < 100) (s : St V World) :
    view (converter Toy.R 100 Toy.N Toy.var (.comp .list (.bin .add .this (.naive (.int 1))) .this true
      (.bin .gt .this (.naive (.int 1))) none) noArgs (.list (is.map .int)) s) =
    (.ok (.list (((is.map V.int).filter (fun x => match x with | .int i => decide (1 < i) | _ => false)).map
        (fun x => match x with | .int i => .int (i + 1) | x => x))),
      s.labels, { s.u with iters := s.u.iters ++ [[]] }) :=
  C23_items_partial noneFalsy namesOk varOk false (by simp) .list (by simp) _ _ true _ (by rfl) noFit _ s
    (is.map .int) _ (toy_iterates s.u _) (by simpa using h) (fun x => match x with | .int i => decide (1 < i) | _ => false)
    (by
      intro x hx
      obtain ⟨i, _, rfl⟩ := List.mem_map.1 hx
      exact ⟨.bool (decide (1 < i)), fun _ => rfl, fun _ => rfl⟩)
    (fun x => match x with | .int i => .int (i + 1) | x => x)
    (by
      intro x hx _
      obtain ⟨i, _, rfl⟩ := List.mem_map.1 hx
      exact fun _ => rfl)
    (by simp)

/-- A later value for a key replaces the earlier one, at its place. -/
example : result (.comp .dict (.lookup false .this [.naive (.int 0)]) (.lookup false .this [.naive (.int 1)]) false
    .this none) noArgs (.list [.list [.int 1, .str "a"], .list [.int 2, .str "b"], .list [.int 1, .str "c"]]) =
    .ok (.dict [.int 1, .str "c", .int 2, .str "b"]) := by decide +kernel

/-- Exceptions: items before are converted, items after are not. -/
example : calls (.comp .list (.call (.naive (.obj (.fn "inc"))) [.this] []) .this false .this none) noArgs
    (.list [.int 1, .str "x", .int 2]) = ["inc", "inc"] := by decide +kernel

example : result (.comp .list .this .this false .this (some (.none, true))) noArgs (.list [.int 1, .int 3, .int 2]) =
    .ok (.list [.int 3, .int 2, .int 1]) := by decide +kernel

example (is : List Int) (h : is.length < 100) (rev : Bool) (s : St V World) :
    ∃ r, view (converter Toy.R 100 Toy.N Toy.var (.comp .list .this .this false .this (some (.none, rev))) noArgs
      (.list (is.map .int)) s) = (.ok (.list r), s.labels, { s.u with iters := s.u.iters ++ [[]] }) ∧
      PySort.SortOf V.lt rev (is.map .int) r := by
  obtain ⟨r, h1, h2⟩ := C24_list_partial (fuel := 100) noneFalsy namesOk varOk false (by simp) .this .this false .this
    .none rev (by rfl) noFit (.list (is.map .int)) s (is.map .int) _ (toy_iterates s.u _) (by simpa using h)
    (fun _ => true) (fun _ _ => rfl) (fun x => x) (fun _ _ _ _ => rfl) V.lt ltOrder .list (fun _ _ => rfl)
  rw [List.filter_eq_self.2 (by simp), List.map_id'] at h2
  exact ⟨r, h1, h2⟩

/-- Keys and values of the items of the samples below. -/
def kvComp (sort : Option (Lit V × Bool)) : Conv V :=
  .comp .dict (.lookup false .this [.naive (.int 0)]) (.lookup false .this [.naive (.int 1)]) false .this sort

theorem insert_flat (k x : V) : ∀ d : List (V × V), insert k x (flat d) = flat (Dict.set d k x)
  | [] => rfl
  | (a, b) :: d => by
    rw [flat_cons]
    simp only [Toy.insert, Dict.set]
    rw [show (a == k) = a.beq k from rfl, insert_flat k x d]
    split <;> rfl

theorem mkDict_flat : ∀ (ps d : List (V × V)),
    mkDict (flat d) (flat ps) = flat (ps.foldl (fun d p => Dict.set d p.1 p.2) d)
  | [], d => rfl
  | p :: ps, d => by
    rw [flat_cons]
    simp only [mkDict, List.foldl_cons]
    rw [insert_flat, mkDict_flat ps]

theorem unpair_flat : ∀ ps : List (V × V), unpair (ps.map (fun p => .tuple [p.1, p.2])) = flat ps
  | [] => rfl
  | p :: ps => by
    rw [List.map_cons, unpair, unpair_flat ps]
    rfl

/-- An item of the samples. -/
def row (p : Int × String) : V := .list [.int p.1, .str p.2]

/-- The key of an item of the samples. -/
def rowKey : V → V
  | .list (x :: _) => x
  | _ => .none

/-- The value of an item of the samples. -/
def rowVal : V → V
  | .list [_, y] => y
  | _ => .none

example (ps : List (Int × String)) (h : ps.length < 100) (s : St V World) : ∃ d,
    view (converter Toy.R 100 Toy.N Toy.var (kvComp none) noArgs (.list (ps.map row)) s) =
      (.ok (.dict (flat d)), s.labels, { s.u with iters := s.u.iters ++ [[]] }) ∧
    Dict.keys d = Agg.firstSeen ((ps.map row).map rowKey) ∧
    ∀ k, Dict.get? d k = (((ps.map row).filter (fun x => rowKey x == k)).getLast?).map rowVal := by
  obtain ⟨d, h1, h2, h3⟩ := C23_dict_partial (fuel := 100) (A := noArgs) noneFalsy namesOk varOk false (by simp)
    (.lookup false .this [.naive (.int 0)]) (.lookup false .this [.naive (.int 1)]) false .this (by rfl) noFit (.list (ps.map row)) s (ps.map row) _ (toy_iterates s.u _) (by simpa using h)
    (fun _ => true) (fun _ _ => rfl) rowKey rowVal
    (by intro x hx _ s; obtain ⟨p, _, rfl⟩ := List.mem_map.1 hx; rfl)
    (by intro x hx _ s; obtain ⟨p, _, rfl⟩ := List.mem_map.1 hx; rfl)
    (by intro x hx _ s; obtain ⟨p, _, rfl⟩ := List.mem_map.1 hx; exact ⟨_, rfl⟩)
    (fun d => .dict (flat d)) (fun ps u => by
      show (Except.ok (V.dict (mkDict [] (flat ps))), u) = _
      rw [show ([] : List V) = flat [] from rfl, mkDict_flat]
      rfl)
  rw [List.filter_eq_self.2 (by simp)] at h2
  simp only [List.filter_eq_self.2 (show ∀ x ∈ ps.map row, true = true by simp)] at h3
  exact ⟨d, h1, h2, h3⟩

example (s : St V World) (rev : Bool) : ∃ d : List (V × V),
    view (converter Toy.R 100 Toy.N Toy.var (kvComp (some (.none, rev))) noArgs
      (.list [row (2, "a"), row (1, "b"), row (3, "c")]) s) =
      (.ok (.dict (flat d)), s.labels, { s.u with iters := s.u.iters ++ [[]] }) ∧
    d.Perm [(.int 2, .str "a"), (.int 1, .str "b"), (.int 3, .str "c")] := by
  obtain ⟨d, h1, h2, _⟩ := C24_dict_partial (fuel := 100) (A := noArgs) noneFalsy namesOk varOk false (by simp)
    (.lookup false .this [.naive (.int 0)]) (.lookup false .this [.naive (.int 1)]) false .this .none rev (by rfl) noFit (.list [row (2, "a"), row (1, "b"), row (3, "c")]) s
    [row (2, "a"), row (1, "b"), row (3, "c")] _ (toy_iterates s.u _) (by decide)
    (fun _ => true) (fun _ _ => rfl) rowKey rowVal
    (by intro x hx _ s; simp only [List.mem_cons, List.not_mem_nil, or_false] at hx; rcases hx with rfl | rfl | rfl <;> rfl)
    (by intro x hx _ s; simp only [List.mem_cons, List.not_mem_nil, or_false] at hx; rcases hx with rfl | rfl | rfl <;> rfl)
    (by decide +kernel) V.lt ltOrder .list (fun p => .tuple [p.1, p.2]) (fun d => .dict (flat d))
    (fun _ _ _ => rfl) (fun _ _ => rfl) (fun ps u => by
      show (Except.ok (V.dict (mkDict [] (unpair _))), u) = _
      rw [unpair_flat, show ([] : List V) = flat [] from rfl, mkDict_flat]
      rfl)
  exact ⟨d, h1, h2⟩

example : result (kvComp (some (.none, false))) noArgs (.list [.list [.int 2, .str "a"], .list [.int 1, .str "b"]]) =
    .ok (.dict [.int 1, .str "b", .int 2, .str "a"]) := by decide +kernel

end

/-- C24 is violated by `dict_comp(...).sort()` when keys occur several times: the sorted dict maps 1 to "b", the
unsorted one to "a". -/
theorem C24_refuted_dict : ∃ data : Toy.V,
    Toy.result (kvComp none) Toy.noArgs data = .ok (.dict [.int 1, .str "a"]) ∧
    Toy.result (kvComp (some (.none, false))) Toy.noArgs data = .ok (.dict [.int 1, .str "b"]) :=
  ⟨.list [.list [.int 1, .str "b"], .list [.int 1, .str "a"]], by decide +kernel, by decide +kernel⟩

end

end Verif.Expr
