import Verif.Heap.Spec
/-!
# Registered dependencies cover everything a conversion uses

`Covered own h S`: `S a` is a set of keys that contains the key of everything `a` uses and that is found
among the registered dependencies of `a`.  The key of an object is its tag, and for the classes
selected by `own` also its address: these objects are told apart from their copies.
-/
set_option autoImplicit false

namespace Verif.Heap

variable {P : Type} {own : P → Bool}

local notation "Addr" => Nat

/-- What an object is recognized by: class and parameters, if `own` also the identity. -/
def keyAt (own : P → Bool) (h : Heap P) (a : Addr) : Option (P × Option Addr) :=
  (h.nodes[a]?).map fun n => (n.tag, if own n.tag then some a else none)

/-- `S` bounds the keys of what is used from above, and is bounded by the dependencies. -/
def Covered (own : P → Bool) (h : Heap P) (S : Addr → Option (P × Option Addr) → Prop) : Prop :=
  ∀ (a : Addr) n, h.nodes[a]? = some n →
    (∀ c ∈ children h n, S a (keyAt own h c) ∧ ∀ t, S c t → S a t) ∧
    (∀ t, S a t → ∃ d ∈ n.deps, keyAt own h d = t)

/-- The invariant kept by all derivations. -/
def Inv (own : P → Bool) (h : Heap P) : Prop := Closed h ∧ ∃ S, Covered own h S

theorem Covered.uses {h : Heap P} {S : Addr → Option (P × Option Addr) → Prop} (hS : Covered own h S) {a x : Addr}
    (u : Uses h a x) : S a (keyAt own h x) := by
  induction u with
  | direct h1 h2 => exact ((hS _ _ h1).1 _ h2).1
  | through h1 h2 _ ih => exact ((hS _ _ h1).1 _ h2).2 _ ih

theorem children_congr {h h' : Heap P} (n : Node P)
    (e : ∀ d, n.labels = some d → h'.dicts[d]? = h.dicts[d]?) : children h' n = children h n := by
  simp only [children]
  cases hl : n.labels with
  | none => rfl
  | some d => simp only [Option.elim_some, e d hl]

theorem alloc_nodes (h : Heap P) (n : Node P) (i : Addr) :
    (alloc h n).1.nodes[i]? =
      if i = h.nodes.length then some { n with number := h.counter } else h.nodes[i]? := by
  simp only [alloc]
  split
  · rename_i e; subst e; simp
  · rename_i e
    by_cases hi : i < h.nodes.length
    · rw [List.getElem?_append_left hi]
    · rw [List.getElem?_eq_none (by simp; omega), List.getElem?_eq_none (by omega)]

theorem alloc_length (h : Heap P) (n : Node P) :
    (alloc h n).1.nodes.length = h.nodes.length + 1 := by simp [alloc]

theorem modify_length (h : Heap P) (a : Addr) (f : Node P → Node P) :
    (modify h a f).nodes.length = h.nodes.length := by simp [modify]

theorem keyAt_alloc_old (h : Heap P) (n : Node P) {i : Addr} (hi : i < h.nodes.length) :
    keyAt own (alloc h n).1 i = keyAt own h i := by
  simp only [keyAt, alloc_nodes]
  rw [if_neg (by omega)]

theorem keyAt_alloc_new (h : Heap P) (n : Node P) :
    keyAt own (alloc h n).1 h.nodes.length =
      some (n.tag, if own n.tag then some h.nodes.length else none) := by
  simp only [keyAt, alloc_nodes, if_true, Option.map_some]

/-- A new object whose dependencies cover what it refers to. -/
theorem Covered.alloc {h : Heap P} {S : Addr → Option (P × Option Addr) → Prop} (hc : Closed h) (hS : Covered own h S)
    (n : Node P) (T : Option (P × Option Addr) → Prop) (hcn : ∀ c ∈ children h n, c < h.nodes.length)
    (hl : ∀ d, n.labels = some d → d < h.dicts.length) (hd : ∀ p ∈ n.deps, p < h.nodes.length)
    (h1 : ∀ c ∈ children h n, T (keyAt own h c) ∧ ∀ t, S c t → T t)
    (h2 : ∀ t, T t → ∃ d ∈ n.deps, keyAt own h d = t) :
    Closed (alloc h n).1 ∧
      Covered own (alloc h n).1 (fun a t => if a = h.nodes.length then T t else S a t) := by
  have hch : ∀ m : Node P, children (Heap.alloc h n).1 m = children h m := fun m => rfl
  constructor
  · intro i m hm
    rw [alloc_nodes] at hm
    rw [hch, alloc_length]
    split at hm
    · cases hm
      refine ⟨fun c q => Nat.lt_succ_of_lt (hcn c q), fun d q => hl d q,
        fun p q => Nat.lt_succ_of_lt (hd p q)⟩
    · obtain ⟨q1, q2, q3⟩ := hc i m hm
      exact ⟨fun c q => Nat.lt_succ_of_lt (q1 c q), fun d q => q2 d q,
        fun p q => Nat.lt_succ_of_lt (q3 p q)⟩
  · intro a m hm
    rw [alloc_nodes] at hm
    rw [hch]
    split at hm
    · rename_i ha
      cases hm
      subst ha
      simp only [if_true]
      constructor
      · intro c q
        have hcl := hcn c q
        rw [keyAt_alloc_old h n hcl]
        simp only [if_neg (Nat.ne_of_lt hcl)]
        exact h1 c q
      · intro t ht
        obtain ⟨d, q1, q2⟩ := h2 t ht
        exact ⟨d, q1, by rw [keyAt_alloc_old h n (hd d q1)]; exact q2⟩
    · rename_i ha
      simp only [if_neg ha]
      obtain ⟨q1, _, q3⟩ := hc a m hm
      obtain ⟨r1, r2⟩ := hS a m hm
      constructor
      · intro c q
        have hcl := q1 c q
        rw [keyAt_alloc_old h n hcl]
        simp only [if_neg (Nat.ne_of_lt hcl)]
        exact r1 c q
      · intro t ht
        obtain ⟨d, s1, s2⟩ := r2 t ht
        exact ⟨d, s1, by rw [keyAt_alloc_old h n (q3 d s1)]; exact s2⟩

theorem Inv.cloneOne {h h1 : Heap P} {a r : Addr} (i : Inv own h) (e : cloneOne h a = some (h1, r)) :
    Inv own h1 := by
  obtain ⟨nd, hn, e'⟩ := cloneOne_some e
  obtain ⟨hc, S, hS⟩ := i
  obtain ⟨q1, q2, q3⟩ := hc a nd hn
  obtain ⟨r1, r2⟩ := hS a nd hn
  have := hS.alloc hc nd (S a) q1 q2 q3 r1 r2
  rw [show h1 = (Heap.alloc h nd).1 from congrArg Prod.fst e']
  exact ⟨this.1, _, this.2⟩

theorem keyAt_modify (h : Heap P) (a : Addr) (f : Node P → Node P) (hf : ∀ n, (f n).tag = n.tag)
    (x : Addr) : keyAt own (modify h a f) x = keyAt own h x := by
  simp only [keyAt, modify_nodes]
  split
  · cases h.nodes[x]? <;> simp [hf]
  · rfl

theorem children_modify (h : Heap P) (a : Addr) (f : Node P → Node P) (n : Node P) :
    children (modify h a f) n = children h n := rfl

/-- Replacing the `_predefined_input` by a copy of it. -/
theorem Inv.clonePred {h h1 : Heap P} {conv p p' : Addr} {nd : Node P} (i : Inv own h)
    (hn : h.nodes[conv]? = some nd) (hp : nd.pred = some p) (e : Heap.cloneOne h p = some (h1, p'))
    (ho : ∀ np, h.nodes[p]? = some np → own np.tag = false) :
    Inv own (modify h1 conv fun m => { m with pred := some p' }) := by
  obtain ⟨np, hnp, e'⟩ := cloneOne_some e
  have e1 : h1 = (Heap.alloc h np).1 := congrArg Prod.fst e'
  have e2 : p' = (Heap.alloc h np).2 := congrArg Prod.snd e'
  subst e1 e2
  obtain ⟨hc, S, hS⟩ := i
  obtain ⟨q1, q2, q3⟩ := hc p np hnp
  obtain ⟨r1, r2⟩ := hS p np hnp
  obtain ⟨hc1, hS1⟩ := hS.alloc hc np (S p) q1 q2 q3 r1 r2
  have hlt : conv < h.nodes.length := (List.getElem?_eq_some_iff.1 hn).1
  have hpl : p < h.nodes.length := (List.getElem?_eq_some_iff.1 hnp).1
  have hn1 : (Heap.alloc h np).1.nodes[conv]? = some nd := by
    rw [alloc_nodes, if_neg (by omega), hn]
  have hch : ∀ c, c ∈ children (Heap.alloc h np).1 { nd with pred := some (Heap.alloc h np).2 } →
      c = h.nodes.length ∨ c ∈ children (Heap.alloc h np).1 nd := by
    intro c hcm
    simp only [children, Option.toList, List.mem_append, List.mem_cons, List.not_mem_nil,
      or_false] at hcm ⊢
    rcases hcm with ((((e | e) | e) | e) | e) | e
    · left; exact e
    all_goals right
    · exact .inl (.inl (.inl (.inl (.inr e))))
    · exact .inl (.inl (.inl (.inr e)))
    · exact .inl (.inl (.inr e))
    · exact .inl (.inr e)
    · exact .inr e
  have hpm : p ∈ children (Heap.alloc h np).1 nd := by simp [children, hp]
  refine ⟨?_, fun a t => if a = h.nodes.length then S p t else S a t, fun a m hm => ?_⟩
  · intro i m hm
    rw [modify_nodes] at hm
    rw [children_modify, modify_length]
    split at hm
    · rename_i hi
      subst hi
      rw [hn1] at hm
      cases hm
      obtain ⟨s1, s2, s3⟩ := hc1 conv nd hn1
      refine ⟨fun c hcm => ?_, s2, s3⟩
      rcases hch c hcm with e | e
      · rw [e, alloc_length]; exact Nat.lt_succ_self _
      · exact s1 c e
    · exact hc1 i m hm
  · rw [modify_nodes] at hm
    rw [children_modify]
    have ht : ∀ x, keyAt own (modify (Heap.alloc h np).1 conv fun m => { m with
        pred := some (Heap.alloc h np).2 }) x = keyAt own (Heap.alloc h np).1 x :=
      keyAt_modify _ _ _ (fun _ => rfl)
    simp only [ht]
    split at hm
    · rename_i hi
      subst hi
      rw [hn1] at hm
      cases hm
      obtain ⟨s1, s2⟩ := hS1 conv nd hn1
      refine ⟨fun c hcm => ?_, s2⟩
      rcases hch c hcm with e | e
      · obtain ⟨t1, t2⟩ := s1 p hpm
        rw [e, keyAt_alloc_new]
        rw [keyAt_alloc_old h np hpl] at t1
        simp only [keyAt, hnp, Option.map_some, ho np hnp] at t1
        simp only [ho np hnp]
        refine ⟨t1, fun t q => t2 t ?_⟩
        simp only [if_true] at q
        rw [if_neg (by omega)]
        exact q
      · exact s1 c e
    · exact hS1 a m hm

theorem Clean.none (h : Heap P) (a : Addr) : Clean (fun _ => false) h a := fun _ _ _ _ => rfl

/-- Chains of old objects stay as they are. -/
theorem Clean.mono {g h : Heap P} {a : Addr} (hc : Closed g) (ha : a < g.nodes.length)
    (e : ∀ i, i < g.nodes.length → h.nodes[i]? = g.nodes[i]?) (c : Clean own g a) :
    Clean own h a := by
  have key : ∀ {a q}, Above h a q → a < g.nodes.length → Above g a q ∧ q < g.nodes.length := by
    intro a q u
    induction u with
    | one h1 h2 =>
      intro hl
      rw [e _ hl] at h1
      exact ⟨.one h1 h2, (hc _ _ h1).1 _ (by simp [children, h2])⟩
    | more h1 h2 _ ih =>
      intro hl
      rw [e _ hl] at h1
      obtain ⟨r1, r2⟩ := ih ((hc _ _ h1).1 _ (by simp [children, h2]))
      exact ⟨.more h1 h2 r1, r2⟩
  intro q n u hq
  obtain ⟨r1, r2⟩ := key u ha
  exact c q n r1 (by rw [← e q r2]; exact hq)

theorem Inv.cloneLoop {g : Heap P} (hg : Closed g) (k : Nat) : ∀ (h : Heap P) (conv : Addr),
    Inv own h → (∀ i, i < g.nodes.length → h.nodes[i]? = g.nodes[i]?) → g.nodes.length ≤ conv →
    g.nodes.length ≤ h.nodes.length →
    (∀ nd p, h.nodes[conv]? = some nd → nd.pred = some p → p < g.nodes.length ∧ Clean own g p ∧
      ∀ np, g.nodes[p]? = some np → own np.tag = false) →
    Inv own (cloneLoop k h conv).1 := by
  induction k with
  | zero => intro h conv i _ _ _ _; exact i
  | succ k ih =>
    intro h conv i e hle hlen hp'
    simp only [Heap.cloneLoop]
    split
    · exact i
    · rename_i nd hn
      split
      · exact i
      · rename_i p hp
        obtain ⟨q1, q2, q3⟩ := hp' nd p hn hp
        split
        · exact i
        · rename_i h1 p' hcl
          obtain ⟨np, hnp, e'⟩ := cloneOne_some hcl
          have e1 : h1 = (Heap.alloc h np).1 := congrArg Prod.fst e'
          have e2 : p' = h.nodes.length := congrArg Prod.snd e'
          have i' := i.clonePred hn hp hcl (by rw [e p q1]; exact q3)
          subst e1 e2
          have hconv : conv < h.nodes.length := (List.getElem?_eq_some_iff.1 hn).1
          have hnpg : g.nodes[p]? = some np := by rw [← e p q1]; exact hnp
          refine ih _ _ i' (fun j hj => ?_) hlen (by rw [modify_length, alloc_length]; omega)
            fun nd' q hnd' hq => ?_
          · rw [modify_nodes, if_neg (by omega), alloc_nodes, if_neg (by omega), e j hj]
          · rw [modify_nodes, if_neg (by omega), alloc_nodes, if_pos rfl] at hnd'
            cases hnd'
            exact ⟨(hg p np hnpg).1 q (by simp [children, show np.pred = some q from hq]),
              fun x n u hx => q2 x n (.more hnpg hq u) hx, fun x hx => q2 q x (.one hnpg hq) hx⟩

theorem Inv.clone {h : Heap P} (k : Nat) (a : Addr) (i : Inv own h) (c : Clean own h a) :
    Inv own (clone k h a).1 := by
  simp only [Heap.clone]
  split
  · exact i
  · rename_i h1 r hcl
    have i1 := i.cloneOne hcl
    obtain ⟨na, hna, e'⟩ := cloneOne_some hcl
    have e1 : h1 = (Heap.alloc h na).1 := congrArg Prod.fst e'
    have e2 : r = h.nodes.length := congrArg Prod.snd e'
    subst e1 e2
    have := Inv.cloneLoop i.1 k (Heap.alloc h na).1 h.nodes.length i1
      (fun j hj => by rw [alloc_nodes, if_neg (by omega)]) (Nat.le_refl _)
      (by rw [alloc_length]; omega) (fun nd p hnd hp => by
        rw [alloc_nodes, if_pos rfl] at hnd
        cases hnd
        exact ⟨(i.1 a na hna).1 p (by simp [children, show na.pred = some p from hp]),
          fun x n u hx => c x n (.more hna hp u) hx, fun x hx => c p x (.one hna hp) hx⟩)
    split <;> rename_i heq <;> rw [heq] at this <;> exact this

/-- Registering a dependency. -/
theorem Covered.dependsOn {h : Heap P} {S : Addr → Option (P × Option Addr) → Prop} (hc : Closed h)
    (hS : Covered own h S) (a : Addr) {b : Addr} (hb : b < h.nodes.length) :
    Closed (dependsOn h a b) ∧ Covered own (dependsOn h a b) S := by
  have hdep : ∀ p ∈ dependencies h b, p < h.nodes.length := by
    intro p hp
    simp only [dependencies, List.mem_append, List.mem_singleton] at hp
    rcases hp with hp | rfl
    · cases hn : h.nodes[b]? with
      | none => rw [hn] at hp; simp at hp
      | some nb =>
        rw [hn] at hp
        exact (hc b nb hn).2.2 p (by simpa using hp)
    · exact hb
  constructor
  · intro i m hm
    simp only [Heap.dependsOn, modify_nodes] at hm
    simp only [Heap.dependsOn, children_modify, modify_length]
    split at hm
    · obtain ⟨n, hn, rfl⟩ := Option.map_eq_some_iff.1 hm
      obtain ⟨q1, q2, q3⟩ := hc i n hn
      refine ⟨q1, q2, fun p hp => ?_⟩
      rcases List.mem_append.1 hp with hp | hp
      · exact q3 p hp
      · exact hdep p hp
    · exact hc i m hm
  · intro i m hm
    simp only [Heap.dependsOn, modify_nodes] at hm
    simp only [Heap.dependsOn, children_modify]
    have ht : ∀ x, keyAt own (modify h a fun n => { n with deps := n.deps ++ dependencies h b }) x =
        keyAt own h x := keyAt_modify _ _ _ (fun _ => rfl)
    simp only [ht]
    split at hm
    · obtain ⟨n, hn, rfl⟩ := Option.map_eq_some_iff.1 hm
      obtain ⟨r1, r2⟩ := hS i n hn
      refine ⟨r1, fun t q => ?_⟩
      obtain ⟨d, s1, s2⟩ := r2 t q
      exact ⟨d, List.mem_append.2 (.inl s1), s2⟩
    · exact hS i m hm

theorem Inv.dependsOn {h : Heap P} (i : Inv own h) (a : Addr) {b : Addr} (hb : b < h.nodes.length) :
    Inv own (dependsOn h a b) :=
  let ⟨hc, _, hS⟩ := i
  let r := hS.dependsOn hc a hb
  ⟨r.1, _, r.2⟩

theorem dependsOn_length (h : Heap P) (a b : Addr) :
    (dependsOn h a b).nodes.length = h.nodes.length := modify_length _ _ _

theorem Inv.foldDeps {a : Addr} (bs : List Addr) : ∀ {h : Heap P}, Inv own h →
    (∀ b ∈ bs, b < h.nodes.length) → Inv own (bs.foldl (fun h b => Heap.dependsOn h a b) h) := by
  induction bs with
  | nil => intro h i _; exact i
  | cons b bs ih =>
    intro h i hb
    refine ih (i.dependsOn a (hb b (by simp))) fun c hc => ?_
    rw [dependsOn_length]
    exact hb c (List.mem_cons_of_mem _ hc)

theorem foldDeps_length {a : Addr} (bs : List Addr) : ∀ (h : Heap P),
    (bs.foldl (fun h b => dependsOn h a b) h).nodes.length = h.nodes.length := by
  induction bs with
  | nil => intro h; rfl
  | cons b bs ih => intro h; simp only [List.foldl_cons]; rw [ih, dependsOn_length]

/-- The keys of `get_dependencies()` of `c` are among those of `_depends_on` of `y`. -/
def Has (own : P → Bool) (h : Heap P) (y c : Addr) : Prop :=
  ∀ d ∈ dependencies h c, ∃ n, h.nodes[y]? = some n ∧ ∃ d' ∈ n.deps, keyAt own h d' = keyAt own h d

/-- What `Has` gives for covering sets. -/
theorem Has.covers {h : Heap P} {S : Addr → Option (P × Option Addr) → Prop} (hS : Covered own h S) {y c : Addr}
    {n : Node P} (hy : Has own h y c) (hn : h.nodes[y]? = some n) (hc : c < h.nodes.length) (t : Option (P × Option Addr))
    (ht : t = keyAt own h c ∨ S c t) : ∃ d ∈ n.deps, keyAt own h d = t := by
  have key : ∀ d ∈ dependencies h c, ∃ d' ∈ n.deps, keyAt own h d' = keyAt own h d := by
    intro d hd
    obtain ⟨n', hn', r⟩ := hy d hd
    rw [hn] at hn'
    cases hn'
    exact r
  rcases ht with rfl | ht
  · exact key c (by simp [dependencies])
  · obtain ⟨nc, hnc⟩ : ∃ nc, h.nodes[c]? = some nc := ⟨_, List.getElem?_eq_getElem hc⟩
    obtain ⟨d, q1, q2⟩ := (hS c nc hnc).2 t ht
    obtain ⟨d', r1, r2⟩ := key d (by simp [dependencies, hnc, q1])
    exact ⟨d', r1, by rw [r2, q2]⟩

/-- Changing the references of `a` to some `cs`: everything that refers to `a`, directly or not, is in
`U`, and all of `U` has the dependencies of the `cs`.  Label dicts may change only where `U` refers
to them. -/
theorem Inv.link {h h' : Heap P} (i : Inv own h) (U : Addr → Prop) (cs : List Addr)
    (hcs : ∀ c ∈ cs, c < h.nodes.length)
    (hlen : h'.nodes.length = h.nodes.length) (hdl : h'.dicts.length = h.dicts.length)
    (hnode : ∀ (x : Addr) m, h'.nodes[x]? = some m → ∃ n, h.nodes[x]? = some n ∧ m.tag = n.tag ∧
      m.deps = n.deps ∧ m.labels = n.labels ∧
      ∀ c ∈ children h' m, c ∈ children h n ∨ (U x ∧ c ∈ cs))
    (hup : ∀ (q : Addr) n, h.nodes[q]? = some n → ∀ c ∈ children h n, U c → U q)
    (hhas : ∀ y, U y → y < h.nodes.length → ∀ c ∈ cs, Has own h y c) : Inv own h' := by
  obtain ⟨hc, S, hS⟩ := i
  have ht : ∀ x, keyAt own h' x = keyAt own h x := by
    intro x
    simp only [keyAt]
    cases hx : h'.nodes[x]? with
    | none =>
      have : h.nodes[x]? = none := by
        rw [List.getElem?_eq_none_iff] at hx ⊢
        omega
      rw [this]
    | some m =>
      obtain ⟨n, hn, e, _⟩ := hnode x m hx
      simp [hn, e]
  refine ⟨fun x m hm => ?_, fun y t => S y t ∨ (U y ∧ ∃ c ∈ cs, t = keyAt own h c ∨ S c t),
    fun x m hm => ?_⟩
  · obtain ⟨n, hn, _, e2, e3, hch⟩ := hnode x m hm
    obtain ⟨q1, q2, q3⟩ := hc x n hn
    rw [hlen, hdl, e2, e3]
    refine ⟨fun c hcm => ?_, q2, q3⟩
    rcases hch c hcm with r | r
    · exact q1 c r
    · exact hcs c r.2
  · obtain ⟨n, hn, _, e2, _, hch⟩ := hnode x m hm
    obtain ⟨r1, r2⟩ := hS x n hn
    have hxl : x < h.nodes.length := (List.getElem?_eq_some_iff.1 hn).1
    rw [e2]
    simp only [ht]
    constructor
    · intro c hcm
      rcases hch c hcm with r | r
      · obtain ⟨s1, s2⟩ := r1 c r
        refine ⟨.inl s1, fun t q => ?_⟩
        rcases q with q | ⟨q, w⟩
        · exact .inl (s2 t q)
        · exact .inr ⟨hup x n hn c r q, w⟩
      · refine ⟨.inr ⟨r.1, c, r.2, .inl rfl⟩, fun t q => ?_⟩
        rcases q with q | ⟨q, w⟩
        · exact .inr ⟨r.1, c, r.2, .inr q⟩
        · exact .inr ⟨r.1, w⟩
    · intro t q
      rcases q with q | ⟨q, c, hcm, w⟩
      · exact r2 t q
      · exact (hhas x q hxl c hcm).covers hS hn (hcs c hcm) t w

/-- Assigning to attributes of `a`. -/
theorem Inv.assign {h : Heap P} (i : Inv own h) (U : Addr → Prop) (a : Addr) (cs : List Addr)
    (f : Node P → Node P) (hcs : ∀ c ∈ cs, c < h.nodes.length) (hU : U a)
    (hf : ∀ n, (f n).tag = n.tag ∧ (f n).deps = n.deps ∧ (f n).labels = n.labels ∧
      ∀ c ∈ children h (f n), c ∈ children h n ∨ c ∈ cs)
    (hup : ∀ (q : Addr) n, h.nodes[q]? = some n → ∀ c ∈ children h n, U c → U q)
    (hhas : ∀ y, U y → y < h.nodes.length → ∀ c ∈ cs, Has own h y c) : Inv own (modify h a f) := by
  refine i.link U cs hcs (modify_length _ _ _) rfl (fun x m hm => ?_) hup hhas
  rw [modify_nodes] at hm
  simp only [children_modify]
  split at hm
  · rename_i e
    subst e
    obtain ⟨n, hn, rfl⟩ := Option.map_eq_some_iff.1 hm
    obtain ⟨e1, e2, e3, e4⟩ := hf n
    refine ⟨n, hn, e1, e2, e3, fun c hcm => ?_⟩
    rcases e4 c hcm with r | r
    · exact .inl r
    · exact .inr ⟨hU, r⟩
  · exact ⟨m, hm, rfl, rfl, rfl, fun c hcm => .inl hcm⟩

/-! ## Nothing refers to a new object -/

/-- Nothing refers to `a`. -/
def NoRef (h : Heap P) (a : Addr) : Prop :=
  ∀ (q : Addr) n, h.nodes[q]? = some n → a ∉ children h n

theorem Closed.noRef {h : Heap P} (hc : Closed h) {a : Addr} (ha : h.nodes.length ≤ a) : NoRef h a :=
  fun q n hn hm => Nat.not_lt.2 ha ((hc q n hn).1 a hm)

theorem NoRef.dependsOn {h : Heap P} {a : Addr} (hr : NoRef h a) (x b : Addr) :
    NoRef (dependsOn h x b) a := by
  intro q n hn
  simp only [Heap.dependsOn, modify_nodes] at hn
  rw [Heap.dependsOn, children_modify]
  split at hn
  · obtain ⟨m, hm, rfl⟩ := Option.map_eq_some_iff.1 hn
    exact hr q m hm
  · exact hr q n hn

theorem NoRef.foldDeps {a x : Addr} (bs : List Addr) : ∀ {h : Heap P}, NoRef h a →
    NoRef (bs.foldl (fun h b => Heap.dependsOn h x b) h) a := by
  induction bs with
  | nil => intro h r; exact r
  | cons b bs ih => intro h r; exact ih (r.dependsOn x b)

theorem NoRef.alloc {h : Heap P} {a : Addr} (hr : NoRef h a) (n : Node P) (hn : a ∉ children h n) :
    NoRef (alloc h n).1 a := by
  intro q m hm
  rw [alloc_nodes] at hm
  split at hm
  · cases hm; exact hn
  · exact hr q m hm

/-! ## Has -/

theorem dependencies_dependsOn (h : Heap P) (a b c : Addr) (hca : c ≠ a) :
    dependencies (dependsOn h a b) c = dependencies h c := by
  simp only [dependencies, dependsOn, modify_nodes]
  rw [if_neg (fun e => hca e.symm)]

theorem dependencies_lt {h : Heap P} (hc : Closed h) {b : Addr} (hb : b < h.nodes.length) :
    ∀ p ∈ dependencies h b, p < h.nodes.length := by
  intro p hp
  simp only [dependencies, List.mem_append, List.mem_singleton] at hp
  rcases hp with hp | rfl
  · cases hn : h.nodes[b]? with
    | none => rw [hn] at hp; simp at hp
    | some nb =>
      rw [hn] at hp
      exact (hc b nb hn).2.2 p (by simpa using hp)
  · exact hb

theorem Has.of_dependsOn {h : Heap P} {a b : Addr} (ha : a < h.nodes.length) (hab : b ≠ a) :
    Has own (dependsOn h a b) a b := by
  intro d hd
  rw [dependencies_dependsOn _ _ _ _ hab] at hd
  obtain ⟨n, hn⟩ : ∃ n, h.nodes[a]? = some n := ⟨_, List.getElem?_eq_getElem ha⟩
  refine ⟨{ n with deps := n.deps ++ dependencies h b }, ?_, d, ?_, rfl⟩
  · simp only [dependsOn, modify_nodes, if_true, hn, Option.map_some]
  · exact List.mem_append.2 (.inr hd)

theorem Has.dependsOn {h : Heap P} {y c : Addr} (hy : Has own h y c) (a b : Addr) (hca : c ≠ a) :
    Has own (dependsOn h a b) y c := by
  intro d hd
  rw [dependencies_dependsOn _ _ _ _ hca] at hd
  obtain ⟨n, hn, d', q1, q2⟩ := hy d hd
  have ht : ∀ x, keyAt own (Heap.dependsOn h a b) x = keyAt own h x :=
    keyAt_modify _ _ _ (fun _ => rfl)
  simp only [ht]
  simp only [Heap.dependsOn, modify_nodes]
  by_cases e : a = y
  · subst e
    exact ⟨_, by rw [if_pos rfl, hn]; rfl, d', List.mem_append.2 (.inl q1), q2⟩
  · exact ⟨n, by rw [if_neg e, hn], d', q1, q2⟩

theorem Has.foldDeps {a : Addr} (bs : List Addr) : ∀ {h : Heap P}, a < h.nodes.length →
    (∀ b ∈ bs, b ≠ a) → ∀ c, c ≠ a → (c ∈ bs ∨ Has own h a c) →
    Has own (bs.foldl (fun h b => Heap.dependsOn h a b) h) a c := by
  induction bs with
  | nil =>
    intro h _ _ c _ hm
    rcases hm with hm | hm
    · simp at hm
    · exact hm
  | cons b bs ih =>
    intro h ha hb c hca hm
    refine ih (by rw [dependsOn_length]; exact ha) (fun x hx => hb x (List.mem_cons_of_mem _ hx)) c
      hca ?_
    rcases hm with hm | hm
    · rcases List.mem_cons.1 hm with rfl | hm
      · exact .inr (Has.of_dependsOn ha hca)
      · exact .inl hm
    · exact .inr (hm.dependsOn a b hca)

/-! ## Operations -/

theorem construct_length (h : Heap P) (tag : P) (s : Option Addr) (args : List Addr) :
    (construct h tag s args).1.nodes.length = h.nodes.length + 1 := by
  simp only [construct]
  rw [foldDeps_length, alloc_length]

/-- Constructor calls. -/
theorem Inv.construct {h : Heap P} (i : Inv own h) (tag : P) (s : Option Addr) (args : List Addr)
    (hs : ∀ x ∈ s.toList ++ args, x < h.nodes.length) : Inv own (construct h tag s args).1 := by
  -- the same as: a new object without references, its dependencies, then the references
  let nd0 : Node P := ⟨tag, 0, none, none, [], none, none, none, none, []⟩
  have i0 : Inv own (Heap.alloc h nd0).1 := by
    obtain ⟨hc, S, hS⟩ := i
    have := hS.alloc hc nd0 (fun _ => False) (by simp [nd0, children]) (by simp [nd0])
      (by simp [nd0]) (by simp [nd0, children]) (by simp)
    exact ⟨this.1, _, this.2⟩
  let bs := s.toList ++ args
  let a := h.nodes.length
  have hb : ∀ b ∈ bs, b < (Heap.alloc h nd0).1.nodes.length := by
    intro b hb; rw [alloc_length]; exact Nat.lt_succ_of_lt (hs b hb)
  have hne : ∀ b ∈ bs, b ≠ a := fun b hb => Nat.ne_of_lt (hs b hb)
  have i1 := i0.foldDeps (a := a) bs hb
  have nr : NoRef (bs.foldl (fun h b => Heap.dependsOn h a b) (Heap.alloc h nd0).1) a :=
    NoRef.foldDeps bs (NoRef.alloc (i.1.noRef (Nat.le_refl _)) nd0 (by simp [nd0, children]))
  have al : a < (Heap.alloc h nd0).1.nodes.length := by rw [alloc_length]; exact Nat.lt_succ_self _
  have i2 := i1.assign (fun y => y = a) a bs (fun n => { n with
      selfRef := s
      args := args }) (by intro c hc; rw [foldDeps_length]; exact hb c hc) rfl
    (fun n => ⟨rfl, rfl, rfl, fun c hcm => by
      simp only [children, List.mem_append] at hcm ⊢
      simp only [bs, List.mem_append]
      rcases hcm with ((((e | e) | e) | e) | e) | e
      · exact .inl (.inl (.inl (.inl (.inl (.inl e)))))
      · exact .inr (.inl e)
      · exact .inr (.inr e)
      · exact .inl (.inl (.inl (.inr e)))
      · exact .inl (.inl (.inr e))
      · exact .inl (.inr e)⟩)
    (fun q n hn c hcm e => by subst e; exact absurd hcm (nr q n hn))
    (fun y e _ c hcm => by
      subst e
      exact Has.foldDeps bs al hne c (hne c hcm) (.inl hcm))
  let f : Node P → Node P := fun n => { n with
    selfRef := s
    args := args }
  have key : ∀ (bs : List Addr) (g : Heap P), (∀ b ∈ bs, b ≠ a) →
      modify (bs.foldl (fun h b => Heap.dependsOn h a b) g) a f =
        bs.foldl (fun h b => Heap.dependsOn h a b) (modify g a f) := by
    intro bs
    induction bs with
    | nil => intro g _; rfl
    | cons b bs ih =>
      intro g hb
      simp only [List.foldl_cons]
      rw [ih _ (fun x hx => hb x (List.mem_cons_of_mem _ hx))]
      congr 1
      simp only [Heap.dependsOn]
      have : dependencies (modify g a f) b = dependencies g b := by
        simp only [dependencies, modify_nodes]
        rw [if_neg (fun e => hb b (by simp) e.symm)]
      rw [this]
      simp only [modify, Heap.mk.injEq, and_true]
      apply List.ext_getElem?
      intro j
      simp only [List.getElem?_modify]
      by_cases hj : a = j
      · subst hj
        simp only [if_true]
        cases g.nodes[a]? with
        | none => rfl
        | some n => rfl
      · simp [hj]
  have i3 : Inv own (modify (bs.foldl (fun h b => Heap.dependsOn h a b) (Heap.alloc h nd0).1) a f) := i2
  rw [key bs _ hne] at i3
  have e : modify (Heap.alloc h nd0).1 a f = (Heap.alloc h ⟨tag, 0, none, s, args, none, none, none, none, []⟩).1 := by
    simp only [modify, Heap.alloc, Heap.mk.injEq, and_true, a, nd0, f]
    apply List.ext_getElem?
    intro j
    simp only [List.getElem?_modify]
    by_cases hj : h.nodes.length = j
    · subst hj; simp
    · simp only [if_neg hj, Option.map_id']
      by_cases hl : j < h.nodes.length
      · rw [List.getElem?_append_left hl, List.getElem?_append_left hl]
        simp
      · rw [List.getElem?_eq_none (by simp; omega), List.getElem?_eq_none (by simp; omega)]
        rfl
  rw [e] at i3
  exact i3

end Verif.Heap
