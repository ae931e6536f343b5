import Verif.Expr.Good

/-!
# Expressions: generated code simulates direct evaluation
-/

set_option autoImplicit false

namespace Verif.Expr

section
variable {Val U Err : Type}

theorem bind_assoc' {α β γ : Type} (m : M Val U Err α) (k : α → M Val U Err β) (l : β → M Val U Err γ) :
    ((m >>= k) >>= l) = (m >>= fun x => k x >>= l) := by
  funext s
  simp only [bind_run]
  rcases m s with ⟨r, s'⟩
  cases r <;> rfl

theorem bind_pure' {α : Type} (m : M Val U Err α) : (m >>= fun x => pure x) = m := by
  funext s
  simp only [bind_run]
  rcases m s with ⟨r, s'⟩
  cases r <;> rfl

theorem prefix_step (p : List Nat) (n : Nat) : p <+: p ++ [n] := List.prefix_append p [n]

theorem not_prefix_step (p : List Nat) (n : Nat) : ¬ p ++ [n] <+: p := by
  intro h
  have := h.length_le
  rw [List.length_append, List.length_singleton] at this
  omega

theorem prefix_disjoint {p q : List Nat} {a b : Nat} (h : p ++ [a] <+: q) (hab : a ≠ b) :
    ¬ p ++ [b] <+: q := by
  rintro ⟨r', rfl⟩
  obtain ⟨r, hr⟩ := h
  rw [List.append_assoc, List.append_assoc] at hr
  have := List.append_cancel_left hr
  simp at this
  exact hab this.1

variable {P Q : St Val U → Prop} {R : Runtime Val U Err} {fuel : Nat} {N : Names Val} {A : Env Val}
  {P0 : (String → Option Val) → U → Prop}

/-- What is known about the input code of a conversion. -/
structure Hyp (R : Runtime Val U Err) (fuel : Nat) (N : Names Val) (A : Env Val)
    (P0 : (String → Option Val) → U → Prop) (P Q : St Val U → Prop) (m : Bool) (e : PyExpr Val)
    (p : List Nat) (ρ : Env Val) (v : Val) (as ss : List String) : Prop where
  sim : Sim P Q m (eval R fuel e ρ) (pure v)
  keep : ∀ q, p <+: q → ∀ s, P s → (eval R fuel e ρ s).2.cached q = s.cached q
  agree : Agree N A ρ as
  cP : Closed R P ss p
  cQ : Closed R Q ss p
  p0 : ∀ s, P s → P0 s.labels s.u

variable {m : Bool} {e : PyExpr Val} {p : List Nat} {ρ : Env Val} {v : Val} {as ss : List String}

theorem Hyp.sub {p' : List Nat} {as' ss' : List String}
    (h : Hyp R fuel N A P0 P Q m e p ρ v as ss) (ha : ∀ n ∈ as', n ∈ as) (hs : ∀ n ∈ ss', n ∈ ss)
    (hp : p <+: p') : Hyp R fuel N A P0 P Q m e p' ρ v as' ss' where
  sim := h.sim
  keep q hq := h.keep q (hp.trans hq)
  agree n hn := h.agree n (ha n hn)
  cP := h.cP.mono hs hp
  cQ := h.cQ.mono hs hp
  p0 := h.p0

theorem sim_name {x : String} (hx : ρ x = some v) :
    Sim P Q false (eval R fuel (.name x) ρ) (pure v) := by
  have : eval R fuel (.name x) ρ = (pure v : M Val U Err Val) := by
    simp only [eval, runName, hx]
  rw [this]
  exact Sim.pure v

/-- The input code is a variable. -/
theorem Hyp.var {x : String} (hx : ρ x = some v) (hρ : Agree N A ρ as) (cP : Closed R P ss p)
    (cQ : Closed R Q ss p) (p0 : ∀ s, P s → P0 s.labels s.u) :
    Hyp R fuel N A P0 P Q false (.name x) p ρ v as ss where
  sim := sim_name hx
  keep q _ s _ := by simp only [eval, runName, hx]; rfl
  agree := hρ
  cP := cP
  cQ := cQ
  p0 := p0

/-- Cached labels elsewhere stay, and so do those the input code keeps. -/
theorem Hyp.atCached {q : List Nat} (h : Hyp R fuel N A P0 P Q m e p ρ v as ss) {p' : List Nat}
    {as' ss' : List String} (ha : ∀ n ∈ as', n ∈ as) (hs : ∀ n ∈ ss', n ∈ ss)
    (hp : p <+: p') (hq : p <+: q) (hq' : ¬ p' <+: q) (y : Option Val) :
    Hyp R fuel N A P0 P (fun s => s.cached q = y) false e p' ρ v as' ss' where
  sim := by
    intro s t hs hst
    obtain ⟨h1, h2, h3, _, _⟩ := h.sim s t hs hst
    exact ⟨h1, h2, h3, fun hy => (h.keep q hq s hs).trans hy, by simp⟩
  keep r hr := h.keep r (hp.trans hr)
  agree n hn := h.agree n (ha n hn)
  cP := h.cP.mono hs hp
  cQ := Closed.cachedIs R hq' y
  p0 := h.p0

/-- The two truth tests of `None` (1029) have no effect. -/
def NoneFalsy (R : Runtime Val U Err) : Prop := ∀ u, R.truthy R.none u = (.ok false, u)

theorem truthy_none (hn : NoneFalsy R) : runTruthy R R.none = (pure false : M Val U Err Bool) := by
  funext s
  simp only [runTruthy, hn s.u]
  rfl

theorem sim_attachTo {b : Bool} {a r : PyExpr Val} {d : M Val U Err Val} {x : Val}
    (ha : Sim P Q m (eval R fuel a ρ) (pure x)) (p0 : ∀ s, P s → P0 s.labels s.u)
    (ht : inputIsSimple (render N a) = true ∨ TruthOk R P0 x) (hr : Sim P Q b (eval R fuel r ρ) d) :
    Sim P Q (b || (m && (!inputIsSimple (render N a) && !isIn (render N a) (render N r))))
      (eval R fuel (attachTo N a r) ρ) d := by
  unfold Expr.attachTo
  by_cases h : (!inputIsSimple (render N a) && !isIn (render N a) (render N r)) = true
  · rw [if_pos h, h]
    rcases ht with ht | ht
    · simp [ht] at h
    · simp only [Bool.and_true, eval]
      have key : Sim P Q (m || b) (eval R fuel a ρ >>= fun x => runTruthy R x >>= fun _ => eval R fuel r ρ)
          (pure x >>= fun _ => d) := by
        intro s t hs hst
        obtain ⟨h1, h2, h3, h4, h5⟩ := ha s t hs hst
        rw [bind_run, pure_bind']
        rcases hm : eval R fuel a ρ s with ⟨r', s'⟩
        rw [hm] at h1 h2 h3 h4 h5
        simp only at h1 h2 h3 h4 h5
        have h1' : r' = .ok x := h1
        subst h1'
        obtain ⟨b', hb'⟩ := ht _ _ (p0 s' h3)
        have : (runTruthy R x >>= fun _ => eval R fuel r ρ) s' = eval R fuel r ρ s' := by
          rw [bind_run]; simp only [runTruthy, hb']
        simp only [this]
        obtain ⟨g1, g2, g3, g4, g5⟩ := hr s' t h3 h2
        refine ⟨g1, g2, g3, fun hq => g4 (h4 hq), ?_⟩
        intro hb y hy
        simp only [Bool.or_eq_true] at hb
        rcases hb with hb | hb
        · exact g4 (h5 hb x rfl)
        · exact g5 hb y hy
      rw [Bool.or_comm]
      exact key
  · rw [if_neg h]
    refine hr.weaken ?_
    simp only [Bool.not_eq_true] at h
    simp [h]

/-- Attaching the input code of a conversion which is no pipe. -/
theorem finOk {esc : Bool} {c : Conv Val} {d : M Val U Err Val}
    (h : Hyp R fuel N A P0 P Q m e p ρ v as ss)
    (ht : esc = true → inputIsSimple (render N e) = true ∨ TruthOk R P0 v)
    (hg : gen N esc c e p = fin N esc e (gen N false c e p))
    (ha : attaches N esc c e p =
      (esc && (!inputIsSimple (render N e) && !isIn (render N e) (render N (gen N false c e p)))))
    (hc : Sim P Q (m && c.strict) (eval R fuel (gen N false c e p) ρ) d) :
    Sim P Q (m && (c.strict || attaches N esc c e p)) (eval R fuel (gen N esc c e p) ρ) d := by
  rw [hg, ha]
  cases esc with
  | false => simpa [fin] using hc
  | true =>
    simp only [fin, if_true, Bool.true_and]
    refine (sim_attachTo h.sim h.p0 (ht rfl) hc).weaken ?_
    simp only [Bool.and_eq_true, Bool.or_eq_true]
    rintro ⟨h1, h2 | h2⟩
    · exact Or.inl ⟨h1, h2⟩
    · exact Or.inr ⟨h1, h2⟩

theorem eval_wrapItem (attr : Bool) (b i : PyExpr Val) :
    eval R fuel (wrapItem attr b i) ρ = (do
      let x ← eval R fuel b ρ
      let y ← eval R fuel i ρ
      runOp R (if attr then .getattr else .getitem) [x, y]) := by
  unfold wrapItem
  cases attr with
  | false => simp only [eval, Bool.false_eq_true, if_false]
  | true =>
    simp only [if_true]
    split
    · split
      · simp only [eval, pure_bind', Runtime.lit]
      · simp only [eval]
    · simp only [eval]

/-- The variables of a helper function. -/
theorem helperEnv_ok (ρ : Env Val) (x : Val) (l : List String)
    (h : ∀ n ∈ l, (ρ n).isSome ∧ n ≠ "data_") :
    ∃ ρ', helperEnv R ρ x l = (pure ρ' : M Val U Err (Env Val)) ∧ ρ' "data_" = some x ∧
      ∀ n ∈ l, ρ' n = ρ n := by
  induction l with
  | nil => exact ⟨_, rfl, by simp, by simp⟩
  | cons a l ih =>
    obtain ⟨ρ', h1, h2, h3⟩ := ih (fun n hn => h n (List.mem_cons_of_mem _ hn))
    obtain ⟨ha, hd⟩ := h a List.mem_cons_self
    obtain ⟨y, hy⟩ := Option.isSome_iff_exists.1 ha
    refine ⟨ρ'.set a y, ?_, ?_, ?_⟩
    · simp only [helperEnv, runName, hy, pure_bind', h1]
    · simp [Env.set, h2, hd.symm]
    · intro n hn
      by_cases hna : n = a
      · subst hna; simp [Env.set, hy]
      · simp only [Env.set, if_neg hna]
        exact h3 n ((List.mem_cons.1 hn).resolve_left hna)

theorem mem_sortedArgs {l : List String} {n : String} : n ∈ sortedArgs l ↔ n ∈ l := by
  simp [sortedArgs, List.mem_mergeSort, List.mem_eraseDups]

theorem helperEnv_agree (hρ : Agree N A ρ as) (x : Val) :
    ∃ ρ', helperEnv R ρ x (sortedArgs as) = (pure ρ' : M Val U Err (Env Val)) ∧
      ρ' "data_" = some x ∧ Agree N A ρ' as := by
  obtain ⟨ρ', h1, h2, h3⟩ := helperEnv_ok (R := R) ρ x (sortedArgs as) (by
    intro n hn
    obtain ⟨g1, g2, g3, _⟩ := hρ n (mem_sortedArgs.1 hn)
    exact ⟨by rw [g1]; exact g2, g3⟩)
  refine ⟨ρ', h1, h2, ?_⟩
  intro n hn
  obtain ⟨g1, g2, g3, g4⟩ := hρ n hn
  exact ⟨(h3 n (mem_sortedArgs.2 hn)).trans g1, g2, g3, g4⟩

theorem genOpt_cons {c : Conv Val} (hc : c.isOpt = false) (cs : List (Conv Val)) (p : List Nat) (n : Nat) :
    genOpt N (c :: cs) p n =
      .const .none :: gen N false c (.name "data_") (p ++ [n, 1]) :: genOpt N cs p (n + 1) := by
  cases c <;> first | rfl | simp [Conv.isOpt] at hc | simp [genOpt]

theorem denOpt_cons {c : Conv Val} (hc : c.isOpt = false) (cs : List (Conv Val)) (k : Kind) :
    denOpt R fuel A k (c :: cs) v = (do
      let xs ← addItem R k none (den R fuel A c v) (pure R.none)
      let rest ← denOpt R fuel A k cs v
      pure (xs ++ rest)) := by
  cases c <;> first | rfl | simp [Conv.isOpt] at hc | simp [denOpt]

theorem goodOpt_cons {c : Conv Val} (hc : c.isOpt = false) (cs : List (Conv Val)) (n : Nat) :
    GoodOpt R fuel N A P0 (c :: cs) p n v ↔
      (Good R fuel N A P0 false c (.name "data_") (p ++ [n, 1]) v ∧
        GoodOpt R fuel N A P0 cs p (n + 1) v) := by
  cases c <;> first | exact Iff.rfl | simp [Conv.isOpt] at hc | simp [GoodOpt]

theorem genOptPairs_right {k : Conv Val} (hk : k.isOpt = false) (x cx : Conv Val) (rest : List (Conv Val))
    (p : List Nat) (n : Nat) :
    genOptPairs N (k :: .opt x cx :: rest) p n =
      gen N false cx (.name "data_") (p ++ [n, 1]) ::
      gen N false k (.name "data_") (p ++ [n, 2]) :: gen N false x (.name "data_") (p ++ [n, 3]) ::
      genOptPairs N rest p (n + 1) := by
  cases k <;> first | rfl | simp [Conv.isOpt] at hk

theorem genOptPairs_left {x : Conv Val} (hx : x.isOpt = false) (k ck : Conv Val) (rest : List (Conv Val))
    (p : List Nat) (n : Nat) :
    genOptPairs N (.opt k ck :: x :: rest) p n =
      gen N false ck (.name "data_") (p ++ [n, 0]) ::
      gen N false k (.name "data_") (p ++ [n, 2]) :: gen N false x (.name "data_") (p ++ [n, 3]) ::
      genOptPairs N rest p (n + 1) := by
  cases x <;> first | rfl | simp [Conv.isOpt] at hx

theorem genOptPairs_plain {k x : Conv Val} (hk : k.isOpt = false) (hx : x.isOpt = false)
    (rest : List (Conv Val)) (p : List Nat) (n : Nat) :
    genOptPairs N (k :: x :: rest) p n =
      .const .none ::
      gen N false k (.name "data_") (p ++ [n, 2]) :: gen N false x (.name "data_") (p ++ [n, 3]) ::
      genOptPairs N rest p (n + 1) := by
  rw [genOptPairs.eq_4]
  · rintro _ _ _ _ rfl
    simp [Conv.isOpt] at hk
  · rintro _ _ rfl
    simp [Conv.isOpt] at hk
  · rintro _ _ rfl
    simp [Conv.isOpt] at hx

theorem denOptDict_right {k : Conv Val} (hk : k.isOpt = false) (x cx : Conv Val) (rest : List (Conv Val)) :
    denOptDict R fuel A (k :: .opt x cx :: rest) v = (do
      let y ← den R fuel A cx v
      let keep ← runTruthy R y
      let xs ← if keep then addItem R .dict none (den R fuel A k v) (den R fuel A x v) else pure []
      let ys ← denOptDict R fuel A rest v
      pure (xs ++ ys)) := by
  cases k <;> first | rfl | simp [Conv.isOpt] at hk

theorem denOptDict_left {x : Conv Val} (hx : x.isOpt = false) (k ck : Conv Val) (rest : List (Conv Val)) :
    denOptDict R fuel A (.opt k ck :: x :: rest) v = (do
      let y ← den R fuel A ck v
      let keep ← runTruthy R y
      let xs ← if keep then addItem R .dict none (den R fuel A k v) (den R fuel A x v) else pure []
      let ys ← denOptDict R fuel A rest v
      pure (xs ++ ys)) := by
  cases x <;> first | rfl | simp [Conv.isOpt] at hx

theorem denOptDict_plain {k x : Conv Val} (hk : k.isOpt = false) (hx : x.isOpt = false)
    (rest : List (Conv Val)) :
    denOptDict R fuel A (k :: x :: rest) v = (do
      let xs ← addItem R .dict none (den R fuel A k v) (den R fuel A x v)
      let ys ← denOptDict R fuel A rest v
      pure (xs ++ ys)) := by
  rw [denOptDict.eq_4]
  · rintro _ _ _ _ rfl
    simp [Conv.isOpt] at hk
  · rintro _ _ rfl
    simp [Conv.isOpt] at hk
  · rintro _ _ rfl
    simp [Conv.isOpt] at hx

theorem goodOptPairs_right {k : Conv Val} (hk : k.isOpt = false) (x cx : Conv Val)
    (rest : List (Conv Val)) (n : Nat) :
    GoodOptPairs R fuel N A P0 (k :: .opt x cx :: rest) p n v =
    (Good R fuel N A P0 false cx (.name "data_") (p ++ [n, 1]) v ∧
      Good R fuel N A P0 false k (.name "data_") (p ++ [n, 2]) v ∧
      Good R fuel N A P0 false x (.name "data_") (p ++ [n, 3]) v ∧
      GoodOptPairs R fuel N A P0 rest p (n + 1) v) := by
  cases k <;> first | rfl | simp [Conv.isOpt] at hk

theorem goodOptPairs_left {x : Conv Val} (hx : x.isOpt = false) (k ck : Conv Val)
    (rest : List (Conv Val)) (n : Nat) :
    GoodOptPairs R fuel N A P0 (.opt k ck :: x :: rest) p n v =
    (Good R fuel N A P0 false ck (.name "data_") (p ++ [n, 0]) v ∧
      Good R fuel N A P0 false k (.name "data_") (p ++ [n, 2]) v ∧
      Good R fuel N A P0 false x (.name "data_") (p ++ [n, 3]) v ∧
      GoodOptPairs R fuel N A P0 rest p (n + 1) v) := by
  cases x <;> first | rfl | simp [Conv.isOpt] at hx

theorem goodOptPairs_plain {k x : Conv Val} (hk : k.isOpt = false) (hx : x.isOpt = false)
    (rest : List (Conv Val)) (n : Nat) :
    GoodOptPairs R fuel N A P0 (k :: x :: rest) p n v =
    (Good R fuel N A P0 false k (.name "data_") (p ++ [n, 2]) v ∧
      Good R fuel N A P0 false x (.name "data_") (p ++ [n, 3]) v ∧
      GoodOptPairs R fuel N A P0 rest p (n + 1) v) := by
  rw [GoodOptPairs.eq_4]
  · rintro _ _ _ _ rfl
    simp [Conv.isOpt] at hk
  · rintro _ _ rfl
    simp [Conv.isOpt] at hk
  · rintro _ _ rfl
    simp [Conv.isOpt] at hx

theorem isOpt_cases (c : Conv Val) : (∃ x cond, c = .opt x cond) ∨ c.isOpt = false := by
  cases c <;> simp [Conv.isOpt]

theorem Sim.iteTrue {b : Bool} {α : Type} {c : Bool} {x x' y y' : M Val U Err α}
    (h : Sim P Q b x x') (h' : Sim P Q b y y') :
    Sim P Q b (if c = true then x else y) (if c = true then x' else y') := by
  cases c <;> simp [h, h']

end

end Verif.Expr
