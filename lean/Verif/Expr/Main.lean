import Verif.Expr.Once

/-!
# Expressions: the induction over conversions
-/

set_option autoImplicit false

namespace Verif.Expr

section
variable {Val U Err : Type} {R : Runtime Val U Err} {fuel : Nat} {N : Names Val} {A : Env Val}
  {P0 : (String → Option Val) → U → Prop}

/-- The code of `c` does what `c` means. -/
def GenOk (R : Runtime Val U Err) (fuel : Nat) (N : Names Val) (A : Env Val)
    (P0 : (String → Option Val) → U → Prop) (c : Conv Val) : Prop :=
  ∀ (esc : Bool) (P Q : St Val U → Prop) (m : Bool) (e : PyExpr Val) (p : List Nat) (ρ : Env Val) (v : Val),
    Hyp R fuel N A P0 P Q m e p ρ v c.args c.sets →
    (esc = true → inputIsSimple (render N e) = true ∨ TruthOk R P0 v) →
    Good R fuel N A P0 esc c e p v →
    Sim P Q (m && (c.strict || attaches N esc c e p)) (eval R fuel (gen N esc c e p) ρ) (den R fuel A c v)

/-- The same without attaching. -/
theorem GenOk.plain {c : Conv Val} (h : GenOk R fuel N A P0 c) {P Q : St Val U → Prop} {m : Bool}
    {e : PyExpr Val} {p : List Nat} {ρ : Env Val} {v : Val}
    (H : Hyp R fuel N A P0 P Q m e p ρ v c.args c.sets) (hg : Good R fuel N A P0 false c e p v) :
    Sim P Q (m && c.strict) (eval R fuel (gen N false c e p) ρ) (den R fuel A c v) :=
  (h false P Q m e p ρ v H (by simp) hg).weaken (by
    simp only [Bool.and_eq_true, Bool.or_eq_true]
    exact fun hh => ⟨hh.1, Or.inl hh.2⟩)

/-- To show `GenOk` for a conversion which is no pipe, it is enough to look at the code itself. -/
theorem GenOk.of_plain {c : Conv Val}
    (hg : ∀ esc e p, gen N esc c e p = fin N esc e (gen N false c e p))
    (ha : ∀ esc e p, attaches N esc c e p =
      (esc && (!inputIsSimple (render N e) && !isIn (render N e) (render N (gen N false c e p)))))
    (hgood : ∀ esc e p v, Good R fuel N A P0 esc c e p v → Good R fuel N A P0 false c e p v)
    (h : ∀ (P Q : St Val U → Prop) (m : Bool) (e : PyExpr Val) (p : List Nat) (ρ : Env Val) (v : Val),
      Hyp R fuel N A P0 P Q m e p ρ v c.args c.sets → Good R fuel N A P0 false c e p v →
      Sim P Q (m && c.strict) (eval R fuel (gen N false c e p) ρ) (den R fuel A c v)) :
    GenOk R fuel N A P0 c := fun esc P Q m e p ρ v H ht hG =>
  finOk H ht (hg esc e p) (ha esc e p) (h P Q m e p ρ v H (hgood esc e p v hG))

/-- Simulation, then a strict part or nothing. -/
theorem Sim.bindL {P Q : St Val U → Prop} {b1 : Bool} {α β : Type} {m d : M Val U Err α}
    {k k' : α → M Val U Err β} (h : Sim P Q b1 m d) (hk : ∀ x, May d x → Sim P Q false (k x) (k' x)) :
    Sim P Q b1 (m >>= k) (d >>= k') := by
  have := Sim.bind h hk
  simpa using this

/-- Simulation where only the second part is known to be strict. -/
theorem Sim.bindR {P Q : St Val U → Prop} {b1 b2 : Bool} {α β : Type} {m d : M Val U Err α}
    {k k' : α → M Val U Err β} (h : Sim P Q b1 m d) (hk : ∀ x, May d x → Sim P Q b2 (k x) (k' x)) :
    Sim P Q b2 (m >>= k) (d >>= k') :=
  (Sim.bind h hk).weaken (by simp; exact fun h => Or.inr h)

/-- After the input code. -/
theorem Sim.bindV {P Q : St Val U → Prop} {b1 b2 : Bool} {β : Type} {m : M Val U Err Val} {v : Val}
    {k : Val → M Val U Err β} {d : M Val U Err β} (h : Sim P Q b1 m (Pure.pure v))
    (hk : Sim P Q b2 (k v) d) : Sim P Q (b1 || b2) (m >>= k) d := by
  have : d = ((Pure.pure v : M Val U Err Val) >>= fun _ => d) := rfl
  rw [this]
  refine Sim.bind h ?_
  rintro x ⟨t, t', ht⟩
  have : x = v := by
    have := congrArg Prod.fst ht
    simpa [Pure.pure] using this.symm
  subst this
  exact hk

section lists
variable {P Q : St Val U → Prop} {m : Bool} {e : PyExpr Val} {p : List Nat} {ρ : Env Val} {v : Val}

theorem all_ok (cs : List (Conv Val)) (h : ∀ c ∈ cs, GenOk R fuel N A P0 c) :
    ∀ n, Hyp R fuel N A P0 P Q m e p ρ v (argsAll cs) (setsAll cs) →
      GoodAll R fuel N A P0 cs e p n v →
      Sim P Q (m && strictAny cs) (evalAll R fuel (genAll N cs e p n) ρ) (denAll R fuel A cs v) := by
  induction cs with
  | nil =>
    intro n H hG
    simp only [strictAny, Bool.and_false, genAll, evalAll, denAll]
    exact Sim.pure _
  | cons c cs ih =>
    intro n H hG
    simp only [genAll, evalAll, denAll, strictAny]
    simp only [GoodAll] at hG
    simp only [argsAll, setsAll] at H
    have h1 := (h c List.mem_cons_self).plain
      (H.sub (fun _ => List.mem_append_left _) (fun _ => List.mem_append_left _) (prefix_step p n)) hG.1
    have h2 := ih (fun c hc => h c (List.mem_cons_of_mem _ hc)) (n + 1)
      (H.sub (fun _ => List.mem_append_right _) (fun _ => List.mem_append_right _) (List.prefix_refl p)) hG.2
    rw [Bool.and_or_distrib_left]
    exact Sim.bind h1 (fun x _ => Sim.bindL h2 (fun xs _ => Sim.pure _))

theorem path_ok (attr : Bool) (cs : List (Conv Val)) (h : ∀ c ∈ cs, GenOk R fuel N A P0 c) :
    ∀ n b b1 d, Hyp R fuel N A P0 P Q m e p ρ v (argsAll cs) (setsAll cs) →
      GoodAll R fuel N A P0 cs e p n v → Sim P Q b1 (eval R fuel b ρ) d →
      Sim P Q (b1 || (m && strictAny cs)) (eval R fuel (wrapAll attr b (genAll N cs e p n)) ρ)
        (d >>= fun x => denPath R fuel A attr x cs v) := by
  induction cs with
  | nil =>
    intro n b b1 d H hG hb
    simp only [strictAny, Bool.and_false, Bool.or_false, genAll, wrapAll, denPath]
    rw [bind_pure']
    exact hb
  | cons c cs ih =>
    intro n b b1 d H hG hb
    simp only [genAll, wrapAll, denPath, strictAny]
    simp only [GoodAll] at hG
    simp only [argsAll, setsAll] at H
    have h1 := (h c List.mem_cons_self).plain
      (H.sub (fun _ => List.mem_append_left _) (fun _ => List.mem_append_left _) (prefix_step p n)) hG.1
    have hstep : Sim P Q (b1 || (m && c.strict))
        (eval R fuel (wrapItem attr b (gen N false c e (p ++ [n]))) ρ)
        (d >>= fun x => den R fuel A c v >>= fun i =>
          runOp R (if attr then .getattr else .getitem) [x, i]) := by
      rw [eval_wrapItem]
      exact Sim.bind hb (fun x _ => Sim.bindL h1 (fun i _ => Sim.op H.cP H.cQ _ _))
    have := ih (fun c hc => h c (List.mem_cons_of_mem _ hc)) (n + 1) _ _ _
      (H.sub (fun _ => List.mem_append_right _) (fun _ => List.mem_append_right _) (List.prefix_refl p))
      hG.2 hstep
    rw [Bool.and_or_distrib_left, ← Bool.or_assoc]
    simp only [bind_assoc'] at this
    exact this

theorem bool_ok (isAnd : Bool) (cs : List (Conv Val)) (h : ∀ c ∈ cs, GenOk R fuel N A P0 c) :
    ∀ n, Hyp R fuel N A P0 P Q m e p ρ v (argsAll cs) (setsAll cs) →
      GoodAll R fuel N A P0 cs e p n v →
      Sim P Q (m && strictHead cs) (evalBool R fuel isAnd (genAll N cs e p n) ρ)
        (denBool R fuel A isAnd cs v) := by
  induction cs with
  | nil =>
    intro n H hG
    simp only [genAll, evalBool, denBool]
    exact Sim.fail _ _
  | cons c cs ih =>
    intro n H hG
    simp only [genAll, evalBool, denBool, strictHead]
    simp only [GoodAll] at hG
    simp only [argsAll, setsAll] at H
    have h1 := (h c List.mem_cons_self).plain
      (H.sub (fun _ => List.mem_append_left _) (fun _ => List.mem_append_left _) (prefix_step p n)) hG.1
    have h2 := ih (fun c hc => h c (List.mem_cons_of_mem _ hc)) (n + 1)
      (H.sub (fun _ => List.mem_append_right _) (fun _ => List.mem_append_right _) (List.prefix_refl p)) hG.2
    refine Sim.bindL h1 (fun x _ => ?_)
    cases cs with
    | nil => exact Sim.pure _
    | cons c' cs' =>
      simp only [genAll] at h2 ⊢
      refine Sim.bindL (Sim.truthy H.cP H.cQ _) (fun b _ => ?_)
      split
      · exact h2.none
      · exact Sim.pure _

theorem eqs'_ok (cs : List (Conv Val)) (h : ∀ c ∈ cs, GenOk R fuel N A P0 c) :
    ∀ n x, Hyp R fuel N A P0 P Q m e p ρ v (argsAll cs) (setsAll cs) →
      GoodAll R fuel N A P0 cs e p n v →
      Sim P Q false (evalEqs' R fuel x (genAll N cs e p n) ρ) (denEqs' R fuel A x cs v) := by
  induction cs with
  | nil =>
    intro n x H hG
    simp only [genAll, evalEqs', denEqs']
    exact Sim.pure _
  | cons c cs ih =>
    intro n x H hG
    simp only [genAll, evalEqs', denEqs']
    simp only [GoodAll] at hG
    simp only [argsAll, setsAll] at H
    have h1 := (h c List.mem_cons_self).plain
      (H.sub (fun _ => List.mem_append_left _) (fun _ => List.mem_append_left _) (prefix_step p n)) hG.1
    have h2 := fun y => ih (fun c hc => h c (List.mem_cons_of_mem _ hc)) (n + 1) y
      (H.sub (fun _ => List.mem_append_right _) (fun _ => List.mem_append_right _) (List.prefix_refl p)) hG.2
    refine Sim.bindL h1.none (fun y _ => ?_)
    refine Sim.bindL (Sim.op H.cP H.cQ _ _) (fun r _ => ?_)
    cases cs with
    | nil => exact Sim.pure _
    | cons c' cs' =>
      simp only [genAll] at h2 ⊢
      refine Sim.bindL (Sim.truthy H.cP H.cQ _) (fun b _ => ?_)
      exact Sim.iteTrue (h2 y) (Sim.pure _)

theorem eqs_ok (cs : List (Conv Val)) (h : ∀ c ∈ cs, GenOk R fuel N A P0 c) (n : Nat)
    (H : Hyp R fuel N A P0 P Q m e p ρ v (argsAll cs) (setsAll cs))
    (hG : GoodAll R fuel N A P0 cs e p n v) :
    Sim P Q (m && strictHead cs) (evalEqs R fuel (genAll N cs e p n) ρ) (denEqs R fuel A cs v) := by
  cases cs with
  | nil =>
    simp only [genAll, evalEqs, denEqs]
    exact Sim.fail _ _
  | cons c cs =>
    simp only [genAll, evalEqs, denEqs, strictHead]
    simp only [GoodAll] at hG
    simp only [argsAll, setsAll] at H
    have h1 := (h c List.mem_cons_self).plain
      (H.sub (fun _ => List.mem_append_left _) (fun _ => List.mem_append_left _) (prefix_step p n)) hG.1
    exact Sim.bindL h1 (fun x _ => eqs'_ok cs (fun c hc => h c (List.mem_cons_of_mem _ hc)) (n + 1) x
      (H.sub (fun _ => List.mem_append_right _) (fun _ => List.mem_append_right _) (List.prefix_refl p)) hG.2)

/-- A conversion, or the parts of an optional item. -/
def PartsOk (R : Runtime Val U Err) (fuel : Nat) (N : Names Val) (A : Env Val)
    (P0 : (String → Option Val) → U → Prop) (c : Conv Val) : Prop :=
  GenOk R fuel N A P0 c ∧ ∀ x cond, c = .opt x cond → GenOk R fuel N A P0 x ∧ GenOk R fuel N A P0 cond

theorem prefix_step2 (p : List Nat) (a b : Nat) : p <+: p ++ [a, b] := List.prefix_append p [a, b]

theorem opt_ok (k : Kind) (cs : List (Conv Val)) (h : ∀ c ∈ cs, PartsOk R fuel N A P0 c) :
    ∀ n, Hyp R fuel N A P0 P Q m (.name "data_") p ρ v (argsAll cs) (setsAll cs) →
      GoodOpt R fuel N A P0 cs p n v →
      Sim P Q false (evalOpt R fuel k (optFlags cs) (genOpt N cs p n) ρ) (denOpt R fuel A k cs v) := by
  induction cs with
  | nil =>
    intro n H hG
    simp only [genOpt, optFlags, evalOpt, denOpt]
    exact Sim.pure _
  | cons c cs ih =>
    intro n H hG
    simp only [argsAll, setsAll] at H
    have hc := h c List.mem_cons_self
    have hs := ih (fun c hc => h c (List.mem_cons_of_mem _ hc)) (n + 1)
      (H.sub (fun _ => List.mem_append_right _) (fun _ => List.mem_append_right _) (List.prefix_refl p))
    have H1 := H.sub (as' := c.args) (ss' := c.sets) (fun _ => List.mem_append_left _)
      (fun _ => List.mem_append_left _) (List.prefix_refl p)
    rcases isOpt_cases c with ⟨x, cond, rfl⟩ | hopt
    · obtain ⟨hx, hcond⟩ := hc.2 x cond rfl
      simp only [Conv.args, Conv.sets] at H1
      simp only [GoodOpt] at hG
      simp only [genOpt, optFlags, evalOpt, denOpt, Conv.isOpt, if_true]
      have g1 := hcond.plain (H1.sub (fun _ => List.mem_append_right _) (fun _ => List.mem_append_right _)
        (prefix_step2 p n 0)) hG.1
      have g2 := hx.plain (H1.sub (fun _ => List.mem_append_left _) (fun _ => List.mem_append_left _)
        (prefix_step2 p n 1)) hG.2.1
      rw [bind_assoc']
      refine Sim.bindL g1.none (fun y _ => ?_)
      refine Sim.bindL (Sim.truthy H.cP H.cQ _) (fun keep _ => ?_)
      refine Sim.iteTrue (Sim.bindL (Sim.addItem H.cP H.cQ _ _ g2.none (Sim.pure _)) (fun xs _ => ?_))
        (Sim.bindL (Sim.pure _) (fun xs _ => ?_)) <;>
      exact Sim.bindL (hs hG.2.2) (fun rest _ => Sim.pure _)
    · rw [genOpt_cons hopt, denOpt_cons hopt]
      rw [goodOpt_cons hopt] at hG
      simp only [optFlags, hopt, evalOpt, Bool.false_eq_true, if_false, pure_bind', if_true]
      have g2 := hc.1.plain (H1.sub (fun _ => id) (fun _ => id) (prefix_step2 p n 1)) hG.1
      refine Sim.bindL (Sim.addItem H.cP H.cQ _ _ g2.none (Sim.pure _)) (fun xs _ => ?_)
      exact Sim.bindL (hs hG.2) (fun rest _ => Sim.pure _)

theorem pairs_ok : ∀ (cs : List (Conv Val)), (∀ c ∈ cs, PartsOk R fuel N A P0 c) →
    ∀ n, Hyp R fuel N A P0 P Q m (.name "data_") p ρ v (argsAll cs) (setsAll cs) →
      GoodOptPairs R fuel N A P0 cs p n v →
      Sim P Q false (evalOptDict R fuel (optPairFlags cs) (genOptPairs N cs p n) ρ)
        (denOptDict R fuel A cs v)
  | [], _, n, _, _ => by
    simp only [genOptPairs, optPairFlags, evalOptDict, denOptDict]
    exact Sim.pure _
  | [c], _, n, _, _ => by
    have h1 : genOptPairs N [c] p n = [] := by cases c <;> rfl
    have h2 : denOptDict R fuel A [c] v = pure [] := by cases c <;> rfl
    simp only [h1, h2, optPairFlags, evalOptDict]
    exact Sim.pure _
  | k :: x :: cs, h, n, H, hG => by
    simp only [argsAll, setsAll] at H
    have hk := h k List.mem_cons_self
    have hx := h x (List.mem_cons_of_mem _ List.mem_cons_self)
    have hs := pairs_ok cs (fun c hc => h c (List.mem_cons_of_mem _ (List.mem_cons_of_mem _ hc))) (n + 1)
      (H.sub (fun _ hn => List.mem_append_right _ (List.mem_append_right _ hn))
        (fun _ hn => List.mem_append_right _ (List.mem_append_right _ hn)) (List.prefix_refl p))
    have H1 := H.sub (as' := k.args) (ss' := k.sets) (fun _ => List.mem_append_left _)
      (fun _ => List.mem_append_left _) (List.prefix_refl p)
    have H2 := H.sub (as' := x.args) (ss' := x.sets)
      (fun _ hn => List.mem_append_right _ (List.mem_append_left _ hn))
      (fun _ hn => List.mem_append_right _ (List.mem_append_left _ hn)) (List.prefix_refl p)
    have item : ∀ {a b : PyExpr Val} {a' b' : M Val U Err Val} (keep : Bool)
        {l l' : List Val → M Val U Err (List Val)},
        Sim P Q false (eval R fuel a ρ) a' → Sim P Q false (eval R fuel b ρ) b' →
        (∀ xs, Sim P Q false (l xs) (l' xs)) →
        Sim P Q false
          (if keep = true then addItem R .dict none (eval R fuel a ρ) (eval R fuel b ρ) >>= l
            else pure [] >>= l)
          (if keep = true then addItem R .dict none a' b' >>= l' else pure [] >>= l') :=
      fun keep _ _ ha hb hl => Sim.iteTrue
        (Sim.bindL (Sim.addItem H.cP H.cQ _ _ ha hb) (fun xs _ => hl xs))
        (Sim.bindL (Sim.pure _) (fun xs _ => hl xs))
    rcases isOpt_cases k with ⟨k', ck, rfl⟩ | hok
    · obtain ⟨hk', hck⟩ := hk.2 k' ck rfl
      simp only [Conv.args, Conv.sets] at H1
      rcases isOpt_cases x with ⟨x', cx, rfl⟩ | hox
      · obtain ⟨hx', hcx⟩ := hx.2 x' cx rfl
        simp only [Conv.args, Conv.sets] at H2
        simp only [GoodOptPairs] at hG
        simp only [genOptPairs, optPairFlags, Conv.isOpt, Bool.or_self, evalOptDict, denOptDict, if_true]
        have g0 := hck.plain (H1.sub (fun _ => List.mem_append_right _) (fun _ => List.mem_append_right _)
          (prefix_step2 p n 0)) hG.1
        have g1 := hcx.plain (H2.sub (fun _ => List.mem_append_right _) (fun _ => List.mem_append_right _)
          (prefix_step2 p n 1)) hG.2.1
        have g2 := hk'.plain (H1.sub (fun _ => List.mem_append_left _) (fun _ => List.mem_append_left _)
          (prefix_step2 p n 2)) hG.2.2.1
        have g3 := hx'.plain (H2.sub (fun _ => List.mem_append_left _) (fun _ => List.mem_append_left _)
          (prefix_step2 p n 3)) hG.2.2.2.1
        simp only [eval, evalBool, bind_assoc', bind_pure']
        refine Sim.bindL g0.none (fun y _ => ?_)
        refine Sim.bindL (Sim.truthy H.cP H.cQ _) (fun b _ => ?_)
        have g4 : ∀ z, Sim P Q false _ _ := fun z =>
          Sim.bindL (Sim.truthy H.cP H.cQ z) (fun keep _ => item keep g2.none g3.none
            (fun xs => Sim.bindL (hs hG.2.2.2.2) (fun rest _ => Sim.pure (xs ++ rest))))
        cases b with
        | true =>
          simp only [if_true]
          exact Sim.bindL g1.none (fun z _ => g4 z)
        | false =>
          simp only [Bool.false_eq_true, if_false]
          exact Sim.bindL (Sim.pure y) (fun z _ => g4 z)
      · rw [goodOptPairs_left hox] at hG
        rw [genOptPairs_left hox, denOptDict_left hox]
        simp only [optPairFlags, Conv.isOpt, Bool.true_or, evalOptDict, if_true]
        have g0 := hck.plain (H1.sub (fun _ => List.mem_append_right _) (fun _ => List.mem_append_right _)
          (prefix_step2 p n 0)) hG.1
        have g2 := hk'.plain (H1.sub (fun _ => List.mem_append_left _) (fun _ => List.mem_append_left _)
          (prefix_step2 p n 2)) hG.2.1
        have g3 := hx.1.plain (H2.sub (fun _ => id) (fun _ => id) (prefix_step2 p n 3)) hG.2.2.1
        rw [bind_assoc']
        refine Sim.bindL g0.none (fun y _ => ?_)
        refine Sim.bindL (Sim.truthy H.cP H.cQ _) (fun keep _ => ?_)
        exact item keep g2.none g3.none (fun xs => Sim.bindL (hs hG.2.2.2) (fun rest _ => Sim.pure _))
    · have H1' := H1.sub (fun _ => id) (fun _ => id) (prefix_step2 p n 2)
      rcases isOpt_cases x with ⟨x', cx, rfl⟩ | hox
      · obtain ⟨hx', hcx⟩ := hx.2 x' cx rfl
        simp only [Conv.args, Conv.sets] at H2
        rw [goodOptPairs_right hok] at hG
        rw [genOptPairs_right hok, denOptDict_right hok]
        have hf : (Conv.opt x' cx).isOpt = true := rfl
        simp only [optPairFlags, hf, Bool.or_true, evalOptDict, if_true]
        have g1 := hcx.plain (H2.sub (fun _ => List.mem_append_right _) (fun _ => List.mem_append_right _)
          (prefix_step2 p n 1)) hG.1
        have g2 := hk.1.plain H1' hG.2.1
        have g3 := hx'.plain (H2.sub (fun _ => List.mem_append_left _) (fun _ => List.mem_append_left _)
          (prefix_step2 p n 3)) hG.2.2.1
        rw [bind_assoc']
        refine Sim.bindL g1.none (fun y _ => ?_)
        refine Sim.bindL (Sim.truthy H.cP H.cQ _) (fun keep _ => ?_)
        exact item keep g2.none g3.none (fun xs => Sim.bindL (hs hG.2.2.2) (fun rest _ => Sim.pure _))
      · rw [goodOptPairs_plain hok hox] at hG
        rw [genOptPairs_plain hok hox, denOptDict_plain hok hox]
        simp only [optPairFlags, hok, hox, Bool.or_self, evalOptDict, Bool.false_eq_true, if_false,
          pure_bind', if_true]
        have g2 := hk.1.plain H1' hG.1
        have g3 := hx.1.plain (H2.sub (fun _ => id) (fun _ => id) (prefix_step2 p n 3)) hG.2.1
        refine Sim.bindL (Sim.addItem H.cP H.cQ _ _ g2.none g3.none) (fun xs _ => ?_)
        exact Sim.bindL (hs hG.2.2) (fun rest _ => Sim.pure _)

theorem labels_ok (hnone : NoneFalsy R) (name : String) (hlab : ∀ s, P s → s.labels name = some v)
    (cs : List (Conv Val)) :
    (∀ c ∈ cs, GenOk R fuel N A P0 c) →
    ∀ ls n (ss : List String), (∀ l ∈ ls, l ∈ ss) → (∀ l ∈ setsAll cs, l ∈ ss) →
      Hyp R fuel N A P0 P Q m (.getLabel (.user name)) p ρ v (argsAll cs) ss →
      GoodAll R fuel N A P0 cs (.getLabel (.user name)) p n v →
      Sim P Q false
        (evalBool R fuel false (labelLines ls (genAll N cs (.getLabel (.user name)) p n) ++
          [.getLabel (.user name)]) ρ)
        (denLabels R fuel A ls cs v >>= fun _ => pure v) := by
  have base : ∀ (ls : List String) (cs : List (Conv Val)) (n : Nat), ls = [] ∨ cs = [] →
      Sim P Q false
        (evalBool R fuel false (labelLines ls (genAll N cs (.getLabel (.user name)) p n) ++
          [.getLabel (.user name)]) ρ)
        (denLabels R fuel A ls cs v >>= fun _ => pure v) := by
    intro ls cs n hh
    have h1 : labelLines ls (genAll N cs (.getLabel (.user name)) p n) = [] := by
      rcases hh with rfl | rfl
      · cases cs <;> rfl
      · cases ls <;> simp [genAll, labelLines]
    have h2 : denLabels R fuel A ls cs v = pure () := by
      rcases hh with rfl | rfl
      · cases cs <;> simp [denLabels]
      · cases ls <;> simp [denLabels]
    rw [h1, h2]
    simp only [List.nil_append, evalBool, eval, bind_pure', pure_bind']
    intro s t hs hst
    have := hlab s hs
    simp only [runGet, this]
    exact ⟨rfl, hst, hs, id, by simp⟩
  induction cs with
  | nil => intro _ ls n _ _ _ _ _; exact base ls [] n (Or.inr rfl)
  | cons c cs ih =>
    intro h ls n ss hls hss H hG
    cases ls with
    | nil => exact base [] (c :: cs) n (Or.inl rfl)
    | cons l ls =>
      simp only [genAll, labelLines, List.cons_append, evalBool, denLabels]
      simp only [GoodAll] at hG
      simp only [argsAll, setsAll] at H hss
      have h1 := (h c List.mem_cons_self).plain
        (H.sub (ss' := c.sets) (fun _ => List.mem_append_left _)
          (fun n hn => hss n (List.mem_append_left _ hn)) (prefix_step p n)) hG.1
      have h2 := ih (fun c hc => h c (List.mem_cons_of_mem _ hc)) ls (n + 1) ss
        (fun l hl => hls l (List.mem_cons_of_mem _ hl)) (fun l hl => hss l (List.mem_append_right _ hl))
        (H.sub (fun _ => List.mem_append_right _) (fun _ => id) (List.prefix_refl p)) hG.2
      have hne : ∃ a as, labelLines ls (genAll N cs (.getLabel (.user name)) p (n + 1)) ++
          [PyExpr.getLabel (.user name)] = a :: as := by
        cases labelLines ls (genAll N cs (.getLabel (.user name)) p (n + 1)) <;> simp
      obtain ⟨a, as, hne⟩ := hne
      rw [hne] at h2 ⊢
      simp only [eval, bind_assoc', pure_bind', truthy_none hnone, if_true]
      refine Sim.bindL h1.none (fun y _ => ?_)
      exact Sim.bindL (Sim.set H.cP H.cQ (hls l List.mem_cons_self) y) (fun _ _ => h2)

end lists

end

end Verif.Expr
