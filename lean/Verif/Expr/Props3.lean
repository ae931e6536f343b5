import Verif.Expr.Props2

/-!
# C22: optional items of collections
-/

set_option autoImplicit false

namespace Verif.Expr

section
variable {Val U Err : Type} {R : Runtime Val U Err} {fuel : Nat} {N : Names Val} {A : Env Val}
  {var : String → String}

/-- The truth of a value, tested without any effect. -/
def Truth (R : Runtime Val U Err) (x : Val) (b : Bool) : Prop := ∀ u, R.truthy x u = (.ok b, u)

/-- The condition holds (or not) on the input `v`. -/
def Holds (R : Runtime Val U Err) (fuel : Nat) (A : Env Val) (cond : Conv Val) (v : Val) (b : Bool) : Prop :=
  ∃ y, Gives R fuel A cond v y ∧ Truth R y b

/-- The items of a collection on the input `v`: items which are not optional, and optional items whose condition
holds, in the order of definition.  The conversion of a skipped item need not have a value. -/
inductive Items (R : Runtime Val U Err) (fuel : Nat) (A : Env Val) (v : Val) : List (Conv Val) → List Val → Prop
  | nil : Items R fuel A v [] []
  | plain {c : Conv Val} {x : Val} {cs : List (Conv Val)} {xs : List Val} : c.isOpt = false → Gives R fuel A c v x →
      Items R fuel A v cs xs → Items R fuel A v (c :: cs) (x :: xs)
  | keep {c cond : Conv Val} {x : Val} {cs : List (Conv Val)} {xs : List Val} : Holds R fuel A cond v true →
      Gives R fuel A c v x → Items R fuel A v cs xs → Items R fuel A v (.opt c cond :: cs) (x :: xs)
  | skip {c cond : Conv Val} {cs : List (Conv Val)} {xs : List Val} : Holds R fuel A cond v false →
      Items R fuel A v cs xs → Items R fuel A v (.opt c cond :: cs) xs

/-- The condition of a key or value: none, or the condition of an optional one. -/
inductive Part (R : Runtime Val U Err) (fuel : Nat) (A : Env Val) (v : Val) : Conv Val → Conv Val → Bool → Prop
  | plain {c : Conv Val} : c.isOpt = false → Part R fuel A v c c true
  | opt {c cond : Conv Val} {b : Bool} : Holds R fuel A cond v b → Part R fuel A v (.opt c cond) c b

/-- The pairs of a dict on the input `v`, keys and values in turn: a pair is there iff no condition of its parts
fails. -/
inductive Pairs (R : Runtime Val U Err) (fuel : Nat) (A : Env Val) (v : Val) :
    List (Conv Val) → List (Val × Val) → Prop
  | nil : Pairs R fuel A v [] []
  | keep {k e k' e' : Conv Val} {x y : Val} {cs : List (Conv Val)} {ps : List (Val × Val)} :
      Part R fuel A v k k' true → Part R fuel A v e e' true → Gives R fuel A k' v x → Gives R fuel A e' v y →
      Pairs R fuel A v cs ps → Pairs R fuel A v (k :: e :: cs) ((x, y) :: ps)
  | skip {k e k' e' : Conv Val} {b b' : Bool} {cs : List (Conv Val)} {ps : List (Val × Val)} :
      Part R fuel A v k k' b → Part R fuel A v e e' b' → (b && b') = false →
      Pairs R fuel A v cs ps → Pairs R fuel A v (k :: e :: cs) ps

/-- Hashing the value has no effect and does not raise. -/
def Hashable (R : Runtime Val U Err) (x : Val) : Prop := ∀ u, ∃ h, R.op .hash [x] u = (.ok h, u)

theorem runTruthy_of {x : Val} {b : Bool} (h : Truth R x b) (s : St Val U) : runTruthy R x s = (.ok b, s) := by
  unfold runTruthy
  rw [h s.u]

theorem hash_run {x : Val} (h : Hashable R x) (s : St Val U) : ∃ y, runOp R .hash [x] s = (.ok y, s) := by
  obtain ⟨y, hy⟩ := h s.u
  exact ⟨y, by rw [op_last, hy]⟩

theorem addItem_one {k : Kind} {x : Val} (hk : k ≠ .dict) (hh : k = .set → Hashable R x) {m m' : M Val U Err Val}
    (s : St Val U) (hm : m s = (.ok x, s)) (sort : Option (Lit Val × Bool)) :
    addItem R k sort m m' s = (.ok [x], s) := by
  cases k with
  | dict => exact absurd rfl hk
  | set =>
    obtain ⟨y, hy⟩ := hash_run (hh rfl) s
    simp only [addItem]
    rw [bind_run, hm]
    dsimp only
    rw [bind_run, hy]
    rfl
  | list =>
    simp only [addItem]
    rw [bind_run, hm]
    rfl
  | tuple =>
    simp only [addItem]
    rw [bind_run, hm]
    rfl

theorem addItem_pair {x y : Val} (hh : Hashable R x) {m m' : M Val U Err Val} (s : St Val U) (hm : m s = (.ok x, s))
    (hm' : m' s = (.ok y, s)) : addItem R .dict none m m' s = (.ok [x, y], s) := by
  obtain ⟨z, hz⟩ := hash_run hh s
  simp only [addItem]
  rw [bind_run, hm]
  dsimp only
  rw [bind_run, hm']
  dsimp only
  rw [bind_run, hz]
  rfl

theorem denOpt_plain (k : Kind) {c : Conv Val} (hc : c.isOpt = false) (cs : List (Conv Val)) (v : Val) :
    denOpt R fuel A k (c :: cs) v = (do
      let xs ← addItem R k none (den R fuel A c v) (pure R.none)
      let rest ← denOpt R fuel A k cs v
      pure (xs ++ rest)) := by
  refine denOpt.eq_3 R fuel A k v c cs ?_
  rintro c cond rfl
  cases hc

theorem denOpt_items {k : Kind} (hk : k ≠ .dict) {v : Val} {cs : List (Conv Val)} {xs : List Val}
    (h : Items R fuel A v cs xs) (hh : k = .set → ∀ x ∈ xs, Hashable R x) (s : St Val U) :
    denOpt R fuel A k cs v s = (.ok xs, s) := by
  induction h with
  | nil => rfl
  | plain hc hx _ ih =>
    rw [denOpt_plain k hc, bind_run, addItem_one hk (fun h => hh h _ (by simp)) s (hx s)]
    dsimp only
    rw [bind_run, ih (fun h x hx => hh h x (by simp [hx]))]
    rfl
  | keep hcond hx _ ih =>
    obtain ⟨y, hy, ht⟩ := hcond
    rw [denOpt.eq_2, bind_run, hy s]
    dsimp only
    rw [bind_run, runTruthy_of ht]
    simp only [if_true]
    rw [bind_run, addItem_one hk (fun h => hh h _ (by simp)) s (hx s)]
    dsimp only
    rw [bind_run, ih (fun h x hx => hh h x (by simp [hx]))]
    rfl
  | skip hcond _ ih =>
    obtain ⟨y, hy, ht⟩ := hcond
    rw [denOpt.eq_2, bind_run, hy s]
    dsimp only
    rw [bind_run, runTruthy_of ht]
    simp only [Bool.false_eq_true, if_false]
    rw [pure_bind', bind_run, ih hh]
    rfl

theorem denAll_give {v : Val} {cs : List (Conv Val)} {xs : List Val} (h : AllGive R fuel A v cs xs) (s : St Val U) :
    denAll R fuel A cs v s = (.ok xs, s) := by
  induction h with
  | nil => rfl
  | cons hx _ ih =>
    rw [denAll, bind_run, hx s]
    dsimp only
    rw [bind_run, ih]
    rfl

theorem Items.all {v : Val} {cs : List (Conv Val)} {xs : List Val} (h : Items R fuel A v cs xs)
    (hno : cs.any Conv.isOpt = false) : AllGive R fuel A v cs xs := by
  induction h with
  | nil => exact .nil
  | plain _ hx _ ih =>
    simp only [List.any_cons, Bool.or_eq_false_iff] at hno
    exact .cons hx (ih hno.2)
  | keep => simp [Conv.isOpt] at hno
  | skip => simp [Conv.isOpt] at hno

theorem den_coll_items {k : Kind} (hk : k ≠ .dict) {v : Val} {cs : List (Conv Val)} {xs : List Val}
    (h : Items R fuel A v cs xs) (hh : k = .set → ∀ x ∈ xs, Hashable R x) (s : St Val U) :
    den R fuel A (.coll k cs) v s = runOp R (.mk k) xs s := by
  simp only [den]
  split
  · rw [bind_run]
    simp only [inGen, onError]
    rw [denOpt_items hk h hh s]
  · rename_i hno
    rw [bind_run, denAll_give (h.all (by simpa using hno)) s]

/-- C22 (partial: conditions and items without effects; for items with effects see `C13_checked_partial`): the code
of a collection with optional items builds the collection of exactly the items whose condition holds, in the order
of definition. -/
theorem C22_items_partial (hnone : NoneFalsy R) (hN : NamesOk N) (hvar : ∀ t, VarOk N (var t)) (tp : Bool)
    (ht : tp = true → ∀ v u, ∃ b, R.truthy v u = (.ok b, u)) (k : Kind) (hk : k ≠ .dict) (cs : List (Conv Val))
    (hc : (Conv.coll k cs).ok tp true = true) (hfit : ArgsFit N var A (Conv.coll k cs).args) (data : Val)
    (xs : List Val) (hxs : Items R fuel A data cs xs) (hh : k = .set → ∀ x ∈ xs, Hashable R x) (s : St Val U) :
    view (converter R fuel N var (.coll k cs) A data s) =
      ((R.op (.mk k) xs s.u).1, s.labels, (R.op (.mk k) xs s.u).2) := by
  rw [C13_checked_partial hnone hN hvar tp ht (.coll k cs)
    (by intro d hd; simp only [stages, List.mem_singleton] at hd; subst hd; exact hc) hfit,
    den_coll_items hk hxs hh s]
  rfl

/-- Keys and values in turn. -/
def flat (ps : List (Val × Val)) : List Val := ps.flatMap (fun p => [p.1, p.2])

theorem flat_cons (p : Val × Val) (ps : List (Val × Val)) : flat (p :: ps) = p.1 :: p.2 :: flat ps := rfl

theorem denOptDict_pairs {v : Val} {cs : List (Conv Val)} {ps : List (Val × Val)} (h : Pairs R fuel A v cs ps)
    (hh : ∀ p ∈ ps, Hashable R p.1) (s : St Val U) : denOptDict R fuel A cs v s = (.ok (flat ps), s) := by
  induction h with
  | nil => rfl
  | keep hk he hx hy _ ih =>
    have ih := ih (fun p hp => hh p (List.mem_cons_of_mem _ hp))
    cases hk with
    | plain hk =>
      cases he with
      | plain he =>
        rw [denOptDict.eq_4 _ _ _ _ _ _ _ (by rintro a b c d rfl _; cases hk) (by rintro a b rfl; cases hk)
          (by rintro a b rfl; cases he), bind_run, addItem_pair (hh _ (List.mem_cons_self ..)) s (hx s) (hy s)]
        dsimp only
        rw [bind_run, ih]
        rfl
      | opt he =>
        obtain ⟨z, hz, ht⟩ := he
        rw [denOptDict.eq_3 _ _ _ _ _ _ _ _ (by rintro a b rfl; cases hk), bind_run, hz s]
        dsimp only
        rw [bind_run, runTruthy_of ht]
        simp only [if_true]
        rw [bind_run, addItem_pair (hh _ (List.mem_cons_self ..)) s (hx s) (hy s)]
        dsimp only
        rw [bind_run, ih]
        rfl
    | opt hk =>
      obtain ⟨w, hw, hwt⟩ := hk
      cases he with
      | plain he =>
        rw [denOptDict.eq_2 _ _ _ _ _ _ _ _ (by rintro a b rfl; cases he), bind_run, hw s]
        dsimp only
        rw [bind_run, runTruthy_of hwt]
        simp only [if_true]
        rw [bind_run, addItem_pair (hh _ (List.mem_cons_self ..)) s (hx s) (hy s)]
        dsimp only
        rw [bind_run, ih]
        rfl
      | opt he =>
        obtain ⟨z, hz, ht⟩ := he
        rw [denOptDict.eq_1, bind_run, hw s]
        dsimp only
        rw [bind_run, runTruthy_of hwt]
        simp only [if_true]
        rw [bind_run, hz s]
        dsimp only
        rw [bind_run, runTruthy_of ht]
        simp only [if_true]
        rw [bind_run, addItem_pair (hh _ (List.mem_cons_self ..)) s (hx s) (hy s)]
        dsimp only
        rw [bind_run, ih]
        rfl
  | skip hk he hb _ ih =>
    have ih := ih hh
    cases hk with
    | plain hk =>
      cases he with
      | plain he => cases hb
      | opt he =>
        obtain ⟨z, hz, ht⟩ := he
        simp only [Bool.true_and] at hb
        subst hb
        rw [denOptDict.eq_3 _ _ _ _ _ _ _ _ (by rintro a b rfl; cases hk), bind_run, hz s]
        dsimp only
        rw [bind_run, runTruthy_of ht]
        simp only [Bool.false_eq_true, if_false]
        rw [pure_bind', bind_run, ih]
        rfl
    | opt hk =>
      obtain ⟨w, hw, hwt⟩ := hk
      cases he with
      | plain he =>
        simp only [Bool.and_true] at hb
        subst hb
        rw [denOptDict.eq_2 _ _ _ _ _ _ _ _ (by rintro a b rfl; cases he), bind_run, hw s]
        dsimp only
        rw [bind_run, runTruthy_of hwt]
        simp only [Bool.false_eq_true, if_false]
        rw [pure_bind', bind_run, ih]
        rfl
      | opt he =>
        obtain ⟨z, hz, ht⟩ := he
        rw [denOptDict.eq_1, bind_run, hw s]
        dsimp only
        rw [bind_run, runTruthy_of hwt]
        dsimp only
        rename_i b _ _ _ _ _ _ _
        cases b with
        | false =>
          simp only [Bool.false_eq_true, if_false]
          rw [pure_bind', bind_run, runTruthy_of hwt]
          simp only [Bool.false_eq_true, if_false]
          rw [pure_bind', bind_run, ih]
          rfl
        | true =>
          simp only [Bool.true_and] at hb
          subst hb
          simp only [if_true]
          rw [bind_run, hz s]
          dsimp only
          rw [bind_run, runTruthy_of ht]
          simp only [Bool.false_eq_true, if_false]
          rw [pure_bind', bind_run, ih]
          rfl

theorem Pairs.all {v : Val} {cs : List (Conv Val)} {ps : List (Val × Val)} (h : Pairs R fuel A v cs ps)
    (hno : cs.any Conv.isOpt = false) : AllGive R fuel A v cs (flat ps) := by
  induction h with
  | nil => exact .nil
  | keep hk he hx hy _ ih =>
    simp only [List.any_cons, Bool.or_eq_false_iff] at hno
    cases hk with
    | plain _ =>
      cases he with
      | plain _ => exact .cons hx (.cons hy (ih hno.2.2))
      | opt => cases hno.2.1
    | opt => cases hno.1
  | skip hk he hb _ ih =>
    simp only [List.any_cons, Bool.or_eq_false_iff] at hno
    cases hk with
    | plain _ =>
      cases he with
      | plain _ => cases hb
      | opt => cases hno.2.1
    | opt => cases hno.1

/-- C22 (partial: conditions, keys and values without effects) for dicts: a pair is in the dict iff the conditions
of its optional key and its optional value hold. -/
theorem C22_pairs_partial (hnone : NoneFalsy R) (hN : NamesOk N) (hvar : ∀ t, VarOk N (var t)) (tp : Bool)
    (ht : tp = true → ∀ v u, ∃ b, R.truthy v u = (.ok b, u)) (kvs : List (Conv Val))
    (hc : (Conv.dict kvs).ok tp true = true) (hfit : ArgsFit N var A (Conv.dict kvs).args) (data : Val)
    (ps : List (Val × Val)) (hps : Pairs R fuel A data kvs ps) (hh : ∀ p ∈ ps, Hashable R p.1) (s : St Val U) :
    view (converter R fuel N var (.dict kvs) A data s) =
      ((R.op (.mk .dict) (flat ps) s.u).1, s.labels, (R.op (.mk .dict) (flat ps) s.u).2) := by
  rw [C13_checked_partial hnone hN hvar tp ht (.dict kvs)
    (by intro d hd; simp only [stages, List.mem_singleton] at hd; subst hd; exact hc) hfit]
  have : den R fuel A (.dict kvs) data s = runOp R (.mk .dict) (flat ps) s := by
    simp only [den]
    split
    · rw [bind_run]
      simp only [inGen, onError]
      rw [denOptDict_pairs hps hh s]
    · rename_i hno
      rw [bind_run, denAll_give (hps.all (by simpa using hno)) s]
  rw [this]
  rfl

/-! ### The condition of `c.optional` -/

/-- C22: `c.optional(c)` keeps values which are not `None`; `is not` without effects. -/
theorem C22_default (c d : Conv Val) (h : optionalItem c none none none = .ok d) (isNot : Val → Val → Val)
    (hop : ∀ x y u, R.op (.bin .isNot) [x, y] u = (.ok (isNot x y), u)) (v x : Val) (hx : Gives R fuel A c v x)
    (b : Bool) (hb : Truth R (isNot x R.none) b) : ∃ cond, d = .opt c cond ∧ Holds R fuel A cond v b := by
  simp only [optionalItem, Option.isSome_none, Bool.or_self, Bool.false_and, Bool.false_eq_true, if_false,
    Except.ok.injEq] at h
  refine ⟨_, h.symm, _, ?_, hb⟩
  intro s
  simp only [den]
  rw [bind_run, hx s]
  dsimp only
  rw [pure_bind', op_last, hop]
  rfl

/-- C22: `c.optional(c, skip_value=e)` keeps values with `value != e`. -/
theorem C22_skip_value (c e d : Conv Val) (h : optionalItem c (some e) none none = .ok d) (ne : Val → Val → Val)
    (hop : ∀ x y u, R.op (.bin .ne) [x, y] u = (.ok (ne x y), u)) (v x y : Val) (hx : Gives R fuel A c v x)
    (hy : Gives R fuel A e v y) (b : Bool) (hb : Truth R (ne x y) b) :
    ∃ cond, d = .opt c cond ∧ Holds R fuel A cond v b := by
  simp only [optionalItem, Option.isSome_none, Bool.or_self, Bool.false_and, Bool.false_eq_true, if_false,
    Except.ok.injEq] at h
  refine ⟨_, h.symm, _, ?_, hb⟩
  intro s
  simp only [den]
  rw [bind_run, hx s]
  dsimp only
  rw [bind_run, hy s]
  dsimp only
  rw [op_last, hop]

/-- C22: `c.optional(c, skip_if=e)` keeps the item iff `e` is falsy. -/
theorem C22_skip_if (c e d : Conv Val) (h : optionalItem c none (some e) none = .ok d) (v : Val) (b : Bool)
    (hb : Holds R fuel A e v b) (hbool : ∀ b, Truth R (R.bool b) b) :
    ∃ cond, d = .opt c cond ∧ Holds R fuel A cond v (!b) := by
  simp only [optionalItem, Option.isSome_none, Bool.and_false, Bool.false_eq_true, if_false, Except.ok.injEq] at h
  obtain ⟨y, hy, ht⟩ := hb
  refine ⟨_, h.symm, _, ?_, hbool (!b)⟩
  intro s
  simp only [den]
  rw [bind_run, hy s]
  dsimp only
  rw [bind_run, runTruthy_of ht]
  rfl

/-- C22: `c.optional(c, keep_if=e)` keeps the item iff `e` is truthy. -/
theorem C22_keep_if (c e d : Conv Val) (h : optionalItem c none none (some e) = .ok d) (v : Val) (b : Bool)
    (hb : Holds R fuel A e v b) : ∃ cond, d = .opt c cond ∧ Holds R fuel A cond v b := by
  simp only [optionalItem, Option.isSome_none, Bool.and_false, Bool.false_eq_true, if_false, Except.ok.injEq] at h
  exact ⟨_, h.symm, hb⟩

/-- C22: a condition and a value to be skipped are not accepted together. -/
theorem C22_rejected (c e : Conv Val) (skipIf keepIf : Option (Conv Val)) (h : skipIf ≠ none ∨ keepIf ≠ none) :
    ∃ m, optionalItem c (some e) skipIf keepIf = .error m := by
  refine ⟨_, if_pos ?_⟩
  rcases h with h | h
  · cases skipIf with
    | none => exact absurd rfl h
    | some _ => rfl
  · cases keepIf with
    | none => exact absurd rfl h
    | some _ => cases skipIf <;> rfl

section
open Toy

/-- `c.list(1, c.optional(c.this(), skip_if=c.this() > 1), c.optional(boom(..), keep_if=c.this() > 1), 2)` -/
def sampleItems : List (Conv V) :=
  [.naive (.int 1), .opt .this (.not (.bin .gt .this (.naive (.int 1)))),
    .opt (.call (.naive (.obj (.fn "boom"))) [.this] []) (.bin .gt .this (.naive (.int 1))), .naive (.int 2)]

example (s : St V World) : view (converter Toy.R 100 Toy.N Toy.var (.coll .list sampleItems) noArgs (.int 0) s) =
    (.ok (.list [.int 1, .int 0, .int 2]), s.labels, s.u) :=
  C22_items_partial noneFalsy namesOk varOk false (by simp) .list (by simp) _ (by rfl) noFit (.int 0)
    [.int 1, .int 0, .int 2]
    (.plain rfl (fun _ => rfl) (.keep ⟨.bool true, fun _ => rfl, fun _ => rfl⟩ (fun _ => rfl)
      (.skip ⟨.bool false, fun _ => rfl, fun _ => rfl⟩ (.plain rfl (fun _ => rfl) .nil)))) (by simp) s

/-- A pair with an optional key and an optional value. -/
example (s : St V World) : view (converter Toy.R 100 Toy.N Toy.var (.dict [.naive (.str "a"), .this,
    .opt (.naive (.str "b")) (.naive (.bool true)), .opt .this (.bin .gt .this (.naive (.int 1))),
    .opt (.naive (.str "c")) (.naive (.bool true)), .opt .this (.naive (.bool true))]) noArgs (.int 0) s) =
    (.ok (.dict [.str "a", .int 0, .str "c", .int 0]), s.labels, s.u) :=
  C22_pairs_partial noneFalsy namesOk varOk false (by simp) _ (by rfl) noFit (.int 0)
    [(.str "a", .int 0), (.str "c", .int 0)]
    (.keep (.plain rfl) (.plain rfl) (fun _ => rfl) (fun _ => rfl)
      (.skip (.opt ⟨.bool true, fun _ => rfl, fun _ => rfl⟩) (.opt ⟨.bool false, fun _ => rfl, fun _ => rfl⟩) rfl
        (.keep (.opt ⟨.bool true, fun _ => rfl, fun _ => rfl⟩) (.opt ⟨.bool true, fun _ => rfl, fun _ => rfl⟩)
          (fun _ => rfl) (fun _ => rfl) .nil)))
    (by intro p hp; simp only [List.mem_cons, List.not_mem_nil, or_false] at hp
        rcases hp with rfl | rfl <;> exact fun u => ⟨_, rfl⟩) s

end

/-- C22 is violated with both `skip_if` and `keep_if`: only `keep_if` counts, an item whose `skip_if` holds is
kept. -/
theorem C22_refuted_both : ∃ (c skipIf keepIf d : Conv Toy.V) (data : Toy.V),
    optionalItem c none (some skipIf) (some keepIf) = .ok d ∧
    Holds Toy.R 100 Toy.noArgs skipIf data true ∧
    Toy.result (.coll .list [d]) Toy.noArgs data = .ok (.list [.int 1]) :=
  ⟨.this, .naive (.bool true), .naive (.bool true), _, .int 1, rfl, ⟨.bool true, fun _ => rfl, fun _ => rfl⟩,
    by decide +kernel⟩

end

end Verif.Expr
