import Verif.Heap.Props3
/-!
# C60: every reduce of an aggregation's result has a variable
# C61: an aggregation's result is generated with all its parts
-/
set_option autoImplicit false

namespace Verif.Heap

variable {P : Type}

local notation "Addr" => Nat

/-- Specification: the heaps a program reaches that only derives conversions from conversions and
that copies no pipe with an object of the classes `own` as an earlier stage. -/
inductive CleanReachable (own : P → Bool) (cls : Cls P) (maxLen : Nat) : Heap P → Prop
  | empty (n : Nat) : CleanReachable own cls maxLen ⟨[], [], n⟩
  | derive {h : Heap P} (d : Derivation P) : CleanReachable own cls maxLen h → d.Valid h →
      d.Clean own h → CleanReachable own cls maxLen (derive cls maxLen h d).1
  | aggregate {h : Heap P} (a r : Addr) : CleanReachable own cls maxLen h → r < h.nodes.length →
      Clean own h a → CleanReachable own cls maxLen (aggregate maxLen h a r).1

theorem CleanReachable.inv {own : P → Bool} {cls : Cls P} {maxLen : Nat} {h : Heap P}
    (r : CleanReachable own cls maxLen h) : Inv own h := by
  induction r with
  | empty n => exact Inv.empty _ n
  | derive d _ v c ih => exact ih.derive cls maxLen d v c
  | aggregate a r _ hr c ih => exact ih.aggregate maxLen a r c hr

/-- Specification: `x` is a reduce the generated result `r` contains: one of its parts or used by
one. -/
def InResult (isColl isReduce : P → Bool) (h : Heap P) (r x : Addr) : Prop :=
  (∃ i ∈ resultItems isColl h r, i = x ∨ Uses h i x) ∧ ∃ t, tagAt h x = some t ∧ isReduce t = true

/-- **C60** (partial: programs that copy no pipe with a reduce as an earlier stage, see the
refutations; `add_label`, `Reduce.filter` on conversions already in use and conversions as sort keys
excluded as in C52): every reduce the result of an aggregation contains, however deep, is itself one
of the collected reduces, so that code generation finds its variable. -/
theorem C60_partial (isColl isReduce : P → Bool) (cls : Cls P) (maxLen : Nat) (h : Heap P)
    (c : CleanReachable isReduce cls maxLen h) (r x : Addr)
    (u : InResult isColl isReduce h r x) :
    (reduceVar (aggItems isColl isReduce h r) x).isSome = true := by
  obtain ⟨⟨i, hi, u⟩, t, ht, hr⟩ := u
  obtain ⟨nx, hnx, rfl⟩ := Option.map_eq_some_iff.1 ht
  have main : x ∈ dependencies h i := by
    rcases u with rfl | u
    · simp [dependencies]
    · obtain ⟨_, S, hS⟩ := c.inv
      have hs := hS.uses u
      obtain ⟨n, hn⟩ : ∃ n, h.nodes[i]? = some n := by cases u <;> exact ⟨_, by assumption⟩
      obtain ⟨d, h1, h2⟩ := (hS i n hn).2 _ hs
      have : d = x := by
        simp only [keyAt, hnx, Option.map_some, hr, if_true] at h2
        obtain ⟨nd, _, e⟩ := Option.map_eq_some_iff.1 h2
        simp only [Prod.mk.injEq] at e
        have e2 := e.2
        split at e2
        · exact Option.some.inj e2
        · cases e2
      subst this
      simp [dependencies, hn, h1]
  have hm : x ∈ aggItems isColl isReduce h r := by
    simp only [aggItems, List.mem_filter, List.mem_flatMap]
    refine ⟨⟨i, hi, main⟩, ?_⟩
    rw [show (h.nodes[x]?).map (·.tag) = some nx.tag from by rw [hnx]; rfl]
    exact hr
  simp only [reduceVar, List.isSome_idxOf?]
  exact hm

/-- Collections and reduces in the examples. -/
def exColl (t : Nat) : Bool := t == 60
def exReduce (t : Nat) : Bool := t == 50

/-- `c.reduce(Array, c.item(..))` (address 1, of the item at address 0) and a list comprehension
(address 2). -/
def exReduces : Heap Nat :=
  deriveAll exCls 100 ⟨[], [], 0⟩ [.construct 1 none [], .construct 50 none [0], .construct 6 none []]

/-- `c.reduce(..).pipe(c.list_comp(..))`: address 4, its input is the copy 3 of the reduce. -/
def exPiped : Heap Nat := (pipe exCls 100 exReduces 1 2 [] []).1

theorem exReduces_reachable : CleanReachable exReduce exCls 100 exReduces := by
  refine .derive (.construct 6 none []) (.derive (.construct 50 none [0]) (.derive
    (.construct 1 none []) (.empty 0) ?_ trivial) ?_ trivial) ?_ trivial
  · simp [Derivation.Valid]
  · intro x hx
    rw [List.mem_singleton.1 hx]
    decide +kernel
  · simp [Derivation.Valid]

theorem exClean {h : Heap Nat} {a : Nat} {n : Node Nat} (hn : h.nodes[a]? = some n)
    (hp : n.pred = none) : Clean exReduce h a := by
  intro q m u _
  cases u with
  | one u1 u2 => rw [hn] at u1; cases u1; rw [hp] at u2; cases u2
  | more u1 u2 _ => rw [hn] at u1; cases u1; rw [hp] at u2; cases u2

theorem exPiped_reachable : CleanReachable exReduce exCls 100 exPiped := by
  refine .derive (.pipe 1 2 [] []) exReduces_reachable ?_ ?_
  · exact ⟨by decide +kernel, by simp, by simp⟩
  · exact ⟨exClean (n := ⟨50, 1, none, none, [0], none, none, none, none, [0]⟩) rfl rfl,
      exClean (n := ⟨6, 2, none, none, [], none, none, none, none, []⟩) rfl rfl⟩

/-- A reduce that is piped once: `c.aggregate({.. : c.reduce(..).pipe(c.list_comp(..))})`; the dict is at
address 5, the reduce it contains at address 3 has a variable. -/
example :
    let h := (construct exPiped 60 none [4]).1
    CleanReachable exReduce exCls 100 h ∧ InResult exColl exReduce h 5 3 ∧
      reduceVar (aggItems exColl exReduce h 5) 3 = some 0 := by
  refine ⟨.derive (.construct 60 none [4]) exPiped_reachable ?_ trivial,
    ⟨⟨4, by decide +kernel, .inr (.of_children (by decide +kernel))⟩, 50, by decide +kernel, rfl⟩,
    by decide +kernel⟩
  intro x hx
  rw [List.mem_singleton.1 hx]
  decide +kernel

/-- **C60 is violated by reduces that are piped twice**: in
`c.aggregate(c.reduce(..).pipe(c.list_comp(..)).pipe(c.list_comp(..)))` the second `pipe` copies the
whole first pipe, the reduce included, but not the registered dependencies: the reduce the result
(address 7) contains (address 6) has no variable, `_reduce_id_to_var` raises `KeyError`. -/
theorem C60_refuted_two_pipes :
    CleanReachable exReduce exCls 100 exPiped ∧
    let s := pipe exCls 100 exPiped 4 2 [] []
    s.2 = .ok 7 ∧ InResult exColl exReduce s.1 7 6 ∧
      reduceVar (aggItems exColl exReduce s.1 7) 6 = none := by
  refine ⟨exPiped_reachable, by decide +kernel, ⟨⟨7, by decide +kernel, .inr (.step (c := 5)
    (by decide +kernel) (.of_children (by decide +kernel)))⟩, 50, by decide +kernel, rfl⟩,
    by decide +kernel⟩

/-- **C60 is violated by sorted and filtered comprehensions of reduces**:
`c.reduce(..).pipe(c.list_comp(..)).sort()` copies the reduce as well. -/
theorem C60_refuted_sort :
    CleanReachable exReduce exCls 100 exPiped ∧
    let s := sort 100 exPiped 4 none id
    s.2 = .ok 5 ∧ InResult exColl exReduce s.1 5 6 ∧
      reduceVar (aggItems exColl exReduce s.1 5) 6 = none := by
  refine ⟨exPiped_reachable, by decide +kernel, ⟨⟨5, by decide +kernel,
    .inr (.of_children (by decide +kernel))⟩, 50, by decide +kernel, rfl⟩, by decide +kernel⟩

/-- **C60 is violated by pipes from parts of reduces**: `c.reduce(..).item(..)` has the reduce (address
1) as its input; `c.reduce(c.ReduceFuncs.MaxRow, ..).item(..).pipe(..)` (address 6) copies both, and
the copy (address 5) of the reduce has no variable. -/
theorem C60_refuted_method :
    let h := (constructMethod exReduces 1 1 [0]).1
    CleanReachable exReduce exCls 100 h ∧
    let s := pipe exCls 100 h 3 2 [] []
    s.2 = .ok 6 ∧ InResult exColl exReduce s.1 6 5 ∧
      reduceVar (aggItems exColl exReduce s.1 6) 5 = none := by
  refine ⟨.derive (.method 1 1 [0]) exReduces_reachable ⟨by decide +kernel, ?_⟩ trivial, by decide +kernel,
    ⟨⟨6, by decide +kernel, .inr (.step (c := 4)
    (by decide +kernel) (.of_children (by decide +kernel)))⟩, 50, by decide +kernel, rfl⟩,
    by decide +kernel⟩
  intro x hx
  rw [List.mem_singleton.1 hx]
  decide +kernel

/-- Unpiped parts of reduces are fine: `c.aggregate(c.reduce(..).item(..))`. -/
example :
    let h := (constructMethod exReduces 1 1 [0]).1
    InResult exColl exReduce h 3 1 ∧ reduceVar (aggItems exColl exReduce h 3) 1 = some 0 :=
  ⟨⟨⟨3, by decide +kernel, .inr (.of_children (by decide +kernel))⟩, 50, by decide +kernel, rfl⟩,
    by decide +kernel⟩

/-! ## C61 -/

/-- **C61** (partial: the result is not a collection with an input or other references besides its
items, see the refutation): whatever the result conversion uses is among the parts code is generated
for, or used by one of them. -/
theorem C61_partial (isColl : P → Bool) (h : Heap P) (r x : Addr) (n : Node P)
    (hn : h.nodes[r]? = some n) (hc : isColl n.tag = true → children h n = n.args)
    (u : Uses h r x) : ∃ i ∈ resultItems isColl h r, i = x ∨ Uses h i x := by
  simp only [resultItems, hn]
  split
  · rename_i e
    have hch := hc e
    cases u with
    | direct h1 h2 =>
      rw [hn] at h1
      cases h1
      exact ⟨x, hch ▸ h2, .inl rfl⟩
    | through h1 h2 h3 =>
      rw [hn] at h1
      cases h1
      exact ⟨_, hch ▸ h2, .inr h3⟩
  · exact ⟨r, by simp, .inr u⟩

/-- The hypothesis holds for every collection that was not piped into: constructors give objects
that refer to their items only. -/
theorem C61_constructed (isColl : P → Bool) (h : Heap P) (t : P) (args : List Addr) (x : Addr)
    (u : Uses (construct h t none args).1 h.nodes.length x) :
    ∃ i ∈ resultItems isColl (construct h t none args).1 h.nodes.length,
      i = x ∨ Uses (construct h t none args).1 i x := by
  obtain ⟨n, hn, e1, e2, e3, e4, e5, e6⟩ 
    := foldDeps_node (a := h.nodes.length) ((none : Option Nat).toList ++ args)
    (alloc h ⟨t, 0, none, none, args, none, none, none, none, []⟩).1 _
    (by rw [alloc_nodes, if_pos rfl])
  refine C61_partial isColl _ _ x n hn (fun _ => ?_) u
  simp [children, e1, e2, e4, e5, e6]

/-- **C61 is violated by collections that are piped into**: in
`c.aggregate(c.reduce(..).pipe({..: c.list_comp(..)}))` the result (address 5, the dict) uses the reduce
(address 4), but only the items of the dict (address 2) are generated: they are applied to the row
instead of the reduced value. -/
theorem C61_refuted_piped_collection :
    let h := (construct exReduces 60 none [2]).1
    CleanReachable exReduce exCls 100 h ∧
    let s := pipe exCls 100 h 1 3 [] []
    s.2 = .ok 5 ∧ Uses s.1 5 4 ∧ tagAt s.1 4 = some 50 ∧
      aggItems exColl exReduce s.1 5 = [] ∧
      ¬ ∃ i ∈ resultItems exColl s.1 5, i = 4 ∨ Uses s.1 i 4 := by
  refine ⟨.derive (.construct 60 none [2]) exReduces_reachable ?_ trivial, by decide +kernel,
    .of_children (by decide +kernel), by decide +kernel, by decide +kernel, ?_⟩
  · intro x hx
    rw [List.mem_singleton.1 hx]
    decide +kernel
  · rintro ⟨i, hi, u⟩
    have : i = 2 := by
      have e : resultItems exColl (pipe exCls 100 (construct exReduces 60 none [2]).1 1 3 [] []).1 5 =
        [2] := by decide +kernel
      rw [e] at hi
      exact List.mem_singleton.1 hi
    subst this
    rcases u with e | u
    · cases e
    · have := not_uses_of_closed (fun q => q = 2) 2 rfl (fun q n hq hn c hc => by
        subst hq
        have e : (((pipe exCls 100 (construct exReduces 60 none [2]).1 1 3 [] []).1.nodes[2]?).map
          (children (pipe exCls 100 (construct exReduces 60 none [2]).1 1 3 [] []).1)) = some [] := by
          decide +kernel
        rw [hn, Option.map_some] at e
        rw [Option.some.inj e] at hc
        cases hc) u
      cases this

end Verif.Heap
