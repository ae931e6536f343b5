import Verif.Expr.Main

/-!
# Expressions: the induction over conversions, case by case
-/

set_option autoImplicit false

namespace Verif.Expr

section
variable {Val U Err : Type} {R : Runtime Val U Err} {fuel : Nat} {N : Names Val} {A : Env Val}
  {P0 : (String → Option Val) → U → Prop}

/-- Attaching does not matter for a conversion which is no pipe. -/
macro "genok" : tactic => `(tactic| first
  | (intro esc e p; rfl)
  | (intro esc e p v h; exact h))

theorem ok_this : GenOk R fuel N A P0 .this := by
  refine GenOk.of_plain (by genok) (by genok) (by genok) ?_
  intro P Q m e p ρ v H hG
  simp only [gen, fin, den, Conv.strict, Bool.and_true, Bool.false_eq_true, if_false]
  exact H.sim

theorem ok_naive (l : Lit Val) : GenOk R fuel N A P0 (.naive l) := by
  refine GenOk.of_plain (by genok) (by genok) (by genok) ?_
  intro P Q m e p ρ v H hG
  simp only [gen, fin, den, Conv.strict, Bool.and_false, Bool.false_eq_true, if_false, eval]
  exact Sim.pure _

theorem ok_arg (n : String) : GenOk R fuel N A P0 (.arg n) := by
  refine GenOk.of_plain (by genok) (by genok) (by genok) ?_
  intro P Q m e p ρ v H hG
  simp only [gen, fin, den, Conv.strict, Bool.and_false, Bool.false_eq_true, if_false, eval, runName]
  obtain ⟨h1, h2, _⟩ := H.agree n (by simp [Conv.args])
  obtain ⟨y, hy⟩ := Option.isSome_iff_exists.1 h2
  rw [h1, hy]
  exact Sim.pure _

theorem ok_label (n : String) : GenOk R fuel N A P0 (.label n) := by
  refine GenOk.of_plain (by genok) (by genok) (by genok) ?_
  intro P Q m e p ρ v H hG
  simp only [gen, fin, den, Conv.strict, Bool.and_false, Bool.false_eq_true, if_false, eval]
  exact Sim.get n

theorem ok_lookup (attr : Bool) {s : Conv Val} {idx : List (Conv Val)} (hs : GenOk R fuel N A P0 s)
    (hi : ∀ c ∈ idx, GenOk R fuel N A P0 c) : GenOk R fuel N A P0 (.lookup attr s idx) := by
  refine GenOk.of_plain (by genok) (by genok) (by genok) ?_
  intro P Q m e p ρ v H hG
  simp only [gen, fin, den, Conv.strict, Bool.false_eq_true, if_false]
  simp only [Conv.args, Conv.sets] at H
  simp only [Good] at hG
  have h1 := hs.plain (H.sub (fun _ => List.mem_append_left _) (fun _ => List.mem_append_left _)
    (prefix_step p 0)) hG.1
  rw [Bool.and_or_distrib_left]
  exact path_ok attr idx hi 0 _ _ _ (H.sub (fun _ => List.mem_append_right _)
    (fun _ => List.mem_append_right _) (prefix_step p 1)) hG.2 h1

theorem ok_lookupD (attr : Bool) {s : Conv Val} {idx : List (Conv Val)} {d : Conv Val}
    (hs : GenOk R fuel N A P0 s) (hi : ∀ c ∈ idx, GenOk R fuel N A P0 c) (hd : GenOk R fuel N A P0 d) :
    GenOk R fuel N A P0 (.lookupD attr s idx d) := by
  refine GenOk.of_plain (by genok) (by genok) (by genok) ?_
  intro P Q m e p ρ v H hG
  simp only [gen, fin, den, Conv.strict, Bool.and_true, Bool.false_eq_true, if_false, eval]
  simp only [Conv.args, Conv.sets] at H
  simp only [Good] at hG
  obtain ⟨g1, g2, g3, g4, g5⟩ := hG
  have h1 := hs.plain (H.sub (fun _ hn => List.mem_append_left _ (List.mem_append_left _ hn))
    (fun _ hn => List.mem_append_left _ (List.mem_append_left _ hn)) (prefix_step p 0)) g1
  have h3 := hd.plain (H.sub (fun _ => List.mem_append_right _) (fun _ => List.mem_append_right _)
    (prefix_step p 2)) g3
  have body : ∀ (g : Bool) (self x d' : Val) (nm : String), defaultEnv g self v d' nm = some x →
      Sim P Q false (eval R fuel (wrapAll attr (.name nm) (genAll N idx (.name "obj_") (p ++ [1]) 0))
        (defaultEnv g self v d')) (denPath R fuel A attr x idx v) := by
    intro g self x d' nm hx
    have := path_ok (m := false) (e := .name "obj_") (p := p ++ [1]) (ρ := defaultEnv g self v d') (v := v)
      (P := P) (Q := Q) attr idx hi 0 (.name nm) false (pure x)
      (Hyp.var (by simp [defaultEnv]) (by rw [g4]; intro n hn; simp at hn)
        (H.cP.mono (fun _ hn => List.mem_append_left _ (List.mem_append_right _ hn)) (prefix_step p 1))
        (H.cQ.mono (fun _ hn => List.mem_append_left _ (List.mem_append_right _ hn)) (prefix_step p 1)) H.p0)
      g2 (sim_name hx)
    simpa [pure_bind'] using this
  have tail : ∀ (x d' : Val) (M1 M2 : M Val U Err Val), Sim P Q false M1 M2 →
      Sim P Q false (onError M1 (fun e => if R.caught e = true then pure d' else fail e))
        (onError M2 (fun e => if R.caught e = true then pure d' else fail e)) := by
    intro x d' M1 M2 h
    exact h.onError (fun e => Sim.iteTrue (Sim.pure _) (Sim.fail _ _))
  by_cases hown : (render N (gen N false s e (p ++ [0])) != render N e) = true
  · simp only [hown, if_true]
    refine Sim.bindR h1 (fun x _ => ?_)
    refine (Sim.bindV (b2 := false) H.sim ?_).weaken (by simp)
    refine Sim.bindL h3.none (fun d' _ => tail x d' _ _ (body true x x d' _ (by simp [defaultEnv])))
  · have hthis : den R fuel A s v = pure v := g5 (by simpa using hown)
    simp only [hown, if_false, Bool.false_eq_true, pure_bind', hthis]
    refine (Sim.bindV (b2 := false) H.sim ?_).weaken (by simp)
    exact Sim.bindL h3.none (fun d' _ => tail v d' _ _ (body false R.none v d' _ (by simp [defaultEnv])))

theorem ok_call {s : Conv Val} {cs : List (Conv Val)} (kw : List String) (hs : GenOk R fuel N A P0 s)
    (hi : ∀ c ∈ cs, GenOk R fuel N A P0 c) : GenOk R fuel N A P0 (.call s cs kw) := by
  refine GenOk.of_plain (by genok) (by genok) (by genok) ?_
  intro P Q m e p ρ v H hG
  simp only [gen, fin, den, Conv.strict, Bool.false_eq_true, if_false, eval]
  simp only [Conv.args, Conv.sets] at H
  simp only [Good] at hG
  have h1 := hs.plain (H.sub (fun _ => List.mem_append_left _) (fun _ => List.mem_append_left _)
    (prefix_step p 0)) hG.1
  have h2 := all_ok cs hi 0 (H.sub (fun _ => List.mem_append_right _)
    (fun _ => List.mem_append_right _) (prefix_step p 1)) hG.2
  rw [Bool.and_or_distrib_left]
  exact Sim.bind h1 (fun x _ => Sim.bindL h2 (fun xs _ => Sim.op H.cP H.cQ _ _))

theorem ok_boolop (isAnd : Bool) {cs : List (Conv Val)} (hi : ∀ c ∈ cs, GenOk R fuel N A P0 c) :
    GenOk R fuel N A P0 (.boolop isAnd cs) := by
  refine GenOk.of_plain (by genok) (by genok) (by genok) ?_
  intro P Q m e p ρ v H hG
  simp only [gen, fin, den, Conv.strict, Bool.false_eq_true, if_false, eval]
  simp only [Conv.args, Conv.sets] at H
  simp only [Good] at hG
  exact bool_ok isAnd cs hi 0 (H.sub (fun _ => id) (fun _ => id) (prefix_step p 1)) hG

theorem ok_eqs {cs : List (Conv Val)} (hi : ∀ c ∈ cs, GenOk R fuel N A P0 c) :
    GenOk R fuel N A P0 (.eqs cs) := by
  refine GenOk.of_plain (by genok) (by genok) (by genok) ?_
  intro P Q m e p ρ v H hG
  simp only [gen, fin, den, Conv.strict, Bool.false_eq_true, if_false, eval]
  simp only [Conv.args, Conv.sets] at H
  simp only [Good] at hG
  exact eqs_ok cs hi 0 (H.sub (fun _ => id) (fun _ => id) (prefix_step p 1)) hG

theorem ok_not {a : Conv Val} (ha : GenOk R fuel N A P0 a) : GenOk R fuel N A P0 (.not a) := by
  refine GenOk.of_plain (by genok) (by genok) (by genok) ?_
  intro P Q m e p ρ v H hG
  simp only [gen, fin, den, Conv.strict, Bool.false_eq_true, if_false, eval]
  simp only [Conv.args, Conv.sets] at H
  simp only [Good] at hG
  have h1 := ha.plain (H.sub (fun _ => id) (fun _ => id) (prefix_step p 0)) hG
  exact Sim.bindL h1 (fun x _ => Sim.bindL (Sim.truthy H.cP H.cQ _) (fun b _ => Sim.pure _))

theorem ok_neg {a : Conv Val} (ha : GenOk R fuel N A P0 a) : GenOk R fuel N A P0 (.neg a) := by
  refine GenOk.of_plain (by genok) (by genok) (by genok) ?_
  intro P Q m e p ρ v H hG
  simp only [gen, fin, den, Conv.strict, Bool.false_eq_true, if_false, eval]
  simp only [Conv.args, Conv.sets] at H
  simp only [Good] at hG
  have h1 := ha.plain (H.sub (fun _ => id) (fun _ => id) (prefix_step p 0)) hG
  exact Sim.bindL h1 (fun x _ => Sim.op H.cP H.cQ _ _)

theorem ok_bin (o : BinOp) {a b : Conv Val} (ha : GenOk R fuel N A P0 a) (hb : GenOk R fuel N A P0 b) :
    GenOk R fuel N A P0 (.bin o a b) := by
  refine GenOk.of_plain (by genok) (by genok) (by genok) ?_
  intro P Q m e p ρ v H hG
  simp only [Conv.args, Conv.sets] at H
  simp only [Good] at hG
  have h1 := ha.plain (H.sub (fun _ => List.mem_append_left _) (fun _ => List.mem_append_left _)
    (prefix_step p 0)) hG.1
  have h2 := hb.plain (H.sub (fun _ => List.mem_append_right _) (fun _ => List.mem_append_right _)
    (prefix_step p 1)) hG.2
  have key : ∀ o', Sim P Q (m && (a.strict || b.strict))
      (eval R fuel (gen N false a e (p ++ [0])) ρ >>= fun x =>
        eval R fuel (gen N false b e (p ++ [1])) ρ >>= fun y => runOp R o' [x, y])
      (den R fuel A a v >>= fun x => den R fuel A b v >>= fun y => runOp R o' [x, y]) := by
    intro o'
    rw [Bool.and_or_distrib_left]
    exact Sim.bind h1 (fun x _ => Sim.bindL h2 (fun y _ => Sim.op H.cP H.cQ _ _))
  cases o <;> exact key _

theorem ok_custom {a : Conv Val} (ha : GenOk R fuel N A P0 a) : GenOk R fuel N A P0 (.mutCustom a) := by
  refine GenOk.of_plain (by genok) (by genok) (by genok) ?_
  intro P Q m e p ρ v H hG
  simp only [gen, fin, den, Conv.strict, Bool.false_eq_true, if_false]
  simp only [Conv.args, Conv.sets] at H
  simp only [Good] at hG
  exact ha.plain (H.sub (fun _ => id) (fun _ => id) (prefix_step p 0)) hG

theorem ok_delAttr {a : Conv Val} (ha : GenOk R fuel N A P0 a) : GenOk R fuel N A P0 (.mutDelAttr a) := by
  refine GenOk.of_plain (by genok) (by genok) (by genok) ?_
  intro P Q m e p ρ v H hG
  simp only [gen, fin, den, Conv.strict, Bool.false_eq_true, if_false, eval, Bool.and_true]
  simp only [Conv.args, Conv.sets] at H
  simp only [Good] at hG
  have h1 := ha.plain (H.sub (fun _ => id) (fun _ => id) (prefix_step p 0)) hG
  refine (Sim.bindV (b2 := false) H.sim ?_).weaken (by simp)
  exact Sim.bindL h1.none (fun x _ => Sim.op H.cP H.cQ _ _)

theorem ok_delItem {a : Conv Val} (ha : GenOk R fuel N A P0 a) : GenOk R fuel N A P0 (.mutDelItem a) := by
  refine GenOk.of_plain (by genok) (by genok) (by genok) ?_
  intro P Q m e p ρ v H hG
  simp only [gen, fin, den, Conv.strict, Bool.false_eq_true, if_false, eval, Bool.and_true]
  simp only [Conv.args, Conv.sets] at H
  simp only [Good] at hG
  have h1 := ha.plain (H.sub (fun _ => id) (fun _ => id) (prefix_step p 0)) hG
  refine (Sim.bindV (b2 := false) H.sim ?_).weaken (by simp)
  refine Sim.bindL (Sim.op H.cP H.cQ _ _) (fun f _ => ?_)
  exact Sim.bindL h1.none (fun x _ => Sim.op H.cP H.cQ _ _)

theorem ok_setAttr {a b : Conv Val} (ha : GenOk R fuel N A P0 a) (hb : GenOk R fuel N A P0 b) :
    GenOk R fuel N A P0 (.mutSetAttr a b) := by
  refine GenOk.of_plain (by genok) (by genok) (by genok) ?_
  intro P Q m e p ρ v H hG
  simp only [gen, fin, den, Conv.strict, Bool.false_eq_true, if_false, eval, Bool.and_true]
  simp only [Conv.args, Conv.sets] at H
  simp only [Good] at hG
  have h1 := ha.plain (H.sub (fun _ => List.mem_append_left _) (fun _ => List.mem_append_left _)
    (prefix_step p 0)) hG.1
  have h2 := hb.plain (H.sub (fun _ => List.mem_append_right _) (fun _ => List.mem_append_right _)
    (prefix_step p 1)) hG.2
  refine (Sim.bindV (b2 := false) H.sim ?_).weaken (by simp)
  refine Sim.bindL h1.none (fun f _ => ?_)
  exact Sim.bindL h2.none (fun x _ => Sim.op H.cP H.cQ _ _)

theorem ok_setItem {a b : Conv Val} (ha : GenOk R fuel N A P0 a) (hb : GenOk R fuel N A P0 b) :
    GenOk R fuel N A P0 (.mutSetItem a b) := by
  refine GenOk.of_plain (by genok) (by genok) (by genok) ?_
  intro P Q m e p ρ v H hG
  simp only [gen, fin, den, Conv.strict, Bool.false_eq_true, if_false, eval, Bool.and_true]
  simp only [Conv.args, Conv.sets] at H
  simp only [Good] at hG
  have h1 := ha.plain (H.sub (fun _ => List.mem_append_left _) (fun _ => List.mem_append_left _)
    (prefix_step p 0)) hG.1
  have h2 := hb.plain (H.sub (fun _ => List.mem_append_right _) (fun _ => List.mem_append_right _)
    (prefix_step p 1)) hG.2
  refine Sim.bindR h2.none (fun z _ => ?_)
  refine (Sim.bindV (b2 := false) H.sim ?_).weaken (by simp)
  exact Sim.bindL h1.none (fun x _ => Sim.op H.cP H.cQ _ _)

theorem ok_comp (k : Kind) {item value : Conv Val} (hasCond : Bool) {cond : Conv Val}
    (sort : Option (Lit Val × Bool)) (hi : GenOk R fuel N A P0 item) (hv : GenOk R fuel N A P0 value)
    (hc : GenOk R fuel N A P0 cond) : GenOk R fuel N A P0 (.comp k item value hasCond cond sort) := by
  refine GenOk.of_plain (by genok) (by genok) (by genok) ?_
  intro P Q m e p ρ v H hG
  simp only [Conv.args, Conv.sets] at H
  simp only [Good] at hG
  obtain ⟨hk, hG⟩ := hG
  simp only [gen, fin, den, Conv.strict, Bool.and_true, Bool.false_eq_true, if_false, if_neg hk, eval]
  refine (Sim.bindV (b2 := false) H.sim ?_).weaken (by simp)
  refine Sim.bindL (Sim.op H.cP H.cQ _ _) ?_
  rintro it ⟨t, t', hit⟩
  have hit' : R.op .iter [v] t.u = (.ok it, t'.u) := by
    simp only [runOp, Prod.mk.injEq] at hit
    exact Prod.ext hit.1 (by rw [← hit.2])
  have hloop : Sim P Q false _ _ := Sim.loop (R := R) H.cP H.cQ it
    (fun x => do
      let keep ← if hasCond then (do
          let c ← eval R fuel (gen N false cond (.name (N.param (render N e))) (p ++ [2]))
            (ρ.set (N.param (render N e)) x)
          runTruthy R c)
        else pure true
      if keep then
        addItem R k sort (eval R fuel (gen N false item (.name (N.param (render N e))) (p ++ [0]))
          (ρ.set (N.param (render N e)) x))
          (eval R fuel (gen N false value (.name (N.param (render N e))) (p ++ [1]))
            (ρ.set (N.param (render N e)) x))
      else pure [])
    (fun x => do
      let keep ← if hasCond then (do
          let c ← den R fuel A cond x
          runTruthy R c)
        else pure true
      if keep then addItem R k sort (den R fuel A item x) (den R fuel A value x) else pure []) (by
    intro x w w' hn
    obtain ⟨g1, g2, g3⟩ := hG x ⟨it, _, _, _, _, hit', hn⟩
    have hag : ∀ as : List String, (∀ n ∈ as, n ∈ item.args ++ value.args ++ cond.args) →
        Agree N A (ρ.set (N.param (render N e)) x) as := by
      intro as has n hn
      obtain ⟨q1, q2, q3, q4⟩ := H.agree n (has n hn)
      refine ⟨?_, q2, q3, q4⟩
      simp only [Env.set, if_neg (q4 _).symm]
      exact q1
    have hset : (ρ.set (N.param (render N e)) x) (N.param (render N e)) = some x := by simp [Env.set]
    have k1 := hi.plain (Hyp.var (P := P) (Q := Q) (p := p ++ [0]) hset
      (hag _ (fun _ hn => List.mem_append_left _ (List.mem_append_left _ hn)))
      (H.cP.mono (fun _ hn => List.mem_append_left _ (List.mem_append_left _ hn)) (prefix_step p 0))
      (H.cQ.mono (fun _ hn => List.mem_append_left _ (List.mem_append_left _ hn)) (prefix_step p 0)) H.p0) g1
    have k2 := hv.plain (Hyp.var (P := P) (Q := Q) (p := p ++ [1]) hset
      (hag _ (fun _ hn => List.mem_append_left _ (List.mem_append_right _ hn)))
      (H.cP.mono (fun _ hn => List.mem_append_left _ (List.mem_append_right _ hn)) (prefix_step p 1))
      (H.cQ.mono (fun _ hn => List.mem_append_left _ (List.mem_append_right _ hn)) (prefix_step p 1)) H.p0) g2
    have k3 := hc.plain (Hyp.var (P := P) (Q := Q) (p := p ++ [2]) hset
      (hag _ (fun _ hn => List.mem_append_right _ hn))
      (H.cP.mono (fun _ hn => List.mem_append_right _ hn) (prefix_step p 2))
      (H.cQ.mono (fun _ hn => List.mem_append_right _ hn) (prefix_step p 2)) H.p0) g3
    have kItem := Sim.addItem H.cP H.cQ k sort k1.none k2.none
    cases hasCond with
    | false =>
      simp only [Bool.false_eq_true, if_false, pure_bind', if_true]
      exact kItem
    | true =>
      simp only [if_true, bind_assoc']
      refine Sim.bindL k3.none (fun y _ => ?_)
      refine Sim.bindL (Sim.truthy H.cP H.cQ _) (fun keep _ => ?_)
      exact Sim.iteTrue kItem (Sim.pure _)) fuel
  by_cases hg : viaGen k sort = true
  · simp only [hg, if_true]
    exact Sim.bindL (hloop.inGen R) (fun xs _ => Sim.finish H.cP H.cQ _ _ _)
  · simp only [hg, if_false, Bool.false_eq_true]
    exact Sim.bindL hloop (fun xs _ => Sim.finish H.cP H.cQ _ _ _)

theorem ok_coll (k : Kind) {cs : List (Conv Val)} (hi : ∀ c ∈ cs, PartsOk R fuel N A P0 c) :
    GenOk R fuel N A P0 (.coll k cs) := by
  refine GenOk.of_plain (by genok) (by genok) (by genok) ?_
  intro P Q m e p ρ v H hG
  simp only [Conv.args, Conv.sets] at H
  simp only [Good] at hG
  obtain ⟨hk, hG⟩ := hG
  by_cases ho : cs.any Conv.isOpt = true
  · rw [if_pos ho] at hG
    simp only [gen, fin, den, Conv.strict, ho, Bool.true_or, Bool.and_true, Bool.false_eq_true, if_false,
      if_true, eval]
    obtain ⟨ρ', h1, h2, h3⟩ := helperEnv_agree (R := R) H.agree v
    refine (Sim.bindV (b2 := false) H.sim ?_).weaken (by simp)
    rw [h1, pure_bind']
    have H' : Hyp R fuel N A P0 P Q false (.name "data_") (p ++ [1]) ρ' v (argsAll cs) (setsAll cs) :=
      Hyp.var h2 h3 (H.cP.mono (fun _ => id) (prefix_step p 1)) (H.cQ.mono (fun _ => id) (prefix_step p 1))
        H.p0
    exact Sim.bindL ((opt_ok k cs hi 0 H' hG).inGen R) (fun xs _ => Sim.op H.cP H.cQ _ _)
  · rw [if_neg ho] at hG
    have hk1 : (cs.isEmpty && k == .tuple) = false := by
      rw [Bool.eq_false_iff]
      intro hh
      simp only [Bool.and_eq_true, List.isEmpty_iff, beq_iff_eq] at hh
      exact hk ⟨hh.1, Or.inl hh.2⟩
    have hk2 : (cs.isEmpty && k == .set) = false := by
      rw [Bool.eq_false_iff]
      intro hh
      simp only [Bool.and_eq_true, List.isEmpty_iff, beq_iff_eq] at hh
      exact hk ⟨hh.1, Or.inr hh.2⟩
    simp only [Bool.not_eq_true] at ho
    simp only [gen, fin, den, Conv.strict, ho, hk1, hk2, Bool.false_or, Bool.false_eq_true, if_false, eval]
    have h2 := all_ok cs (fun c hc => (hi c hc).1) 0 (H.sub (fun _ => id) (fun _ => id) (prefix_step p 1)) hG
    exact Sim.bindL h2 (fun xs _ => Sim.op H.cP H.cQ _ _)

theorem ok_dict {cs : List (Conv Val)} (hi : ∀ c ∈ cs, PartsOk R fuel N A P0 c) :
    GenOk R fuel N A P0 (.dict cs) := by
  refine GenOk.of_plain (by genok) (by genok) (by genok) ?_
  intro P Q m e p ρ v H hG
  simp only [Conv.args, Conv.sets] at H
  simp only [Good] at hG
  by_cases ho : cs.any Conv.isOpt = true
  · rw [if_pos ho] at hG
    simp only [gen, fin, den, Conv.strict, ho, Bool.true_or, Bool.and_true, Bool.false_eq_true, if_false,
      if_true, eval]
    obtain ⟨ρ', h1, h2, h3⟩ := helperEnv_agree (R := R) H.agree v
    refine (Sim.bindV (b2 := false) H.sim ?_).weaken (by simp)
    rw [h1, pure_bind']
    have H' : Hyp R fuel N A P0 P Q false (.name "data_") (p ++ [1]) ρ' v (argsAll cs) (setsAll cs) :=
      Hyp.var h2 h3 (H.cP.mono (fun _ => id) (prefix_step p 1)) (H.cQ.mono (fun _ => id) (prefix_step p 1))
        H.p0
    exact Sim.bindL ((pairs_ok cs hi 0 H' hG).inGen R) (fun xs _ => Sim.op H.cP H.cQ _ _)
  · rw [if_neg ho] at hG
    simp only [Bool.not_eq_true] at ho
    simp only [gen, fin, den, Conv.strict, ho, Bool.false_or, Bool.false_eq_true, if_false, eval]
    have h2 := all_ok cs (fun c hc => (hi c hc).1) 0 (H.sub (fun _ => id) (fun _ => id) (prefix_step p 1)) hG
    exact Sim.bindL h2 (fun xs _ => Sim.op H.cP H.cQ _ _)

theorem ok_tap {o : Conv Val} {ms : List (Conv Val)} (ho : GenOk R fuel N A P0 o)
    (hm : ∀ c ∈ ms, GenOk R fuel N A P0 c) : GenOk R fuel N A P0 (.tap o ms) := by
  refine GenOk.of_plain (by genok) (by genok) (by genok) ?_
  intro P Q m e p ρ v H hG
  simp only [Conv.args, Conv.sets] at H
  simp only [Good] at hG
  simp only [gen, fin, den, Conv.strict, Bool.false_eq_true, if_false, eval]
  have h1 := ho.plain (H.sub (fun _ => List.mem_append_left _) (fun _ => List.mem_append_left _)
    (prefix_step p 0)) hG.1
  refine Sim.bindL h1 (fun x hx => ?_)
  obtain ⟨ρ', g1, g2, g3⟩ := helperEnv_agree (R := R) H.agree x
  rw [g1, pure_bind']
  have H' : Hyp R fuel N A P0 P Q false (.name "data_") (p ++ [1]) ρ' x (argsAll ms) (setsAll ms) :=
    Hyp.var g2 (fun n hn => g3 n (List.mem_append_right _ hn))
      (H.cP.mono (fun _ => List.mem_append_right _) (prefix_step p 1))
      (H.cQ.mono (fun _ => List.mem_append_right _) (prefix_step p 1)) H.p0
  exact Sim.bindL (all_ok ms hm 0 H' (hG.2 x hx)).none (fun _ _ => Sim.pure _)

theorem sim_set {P Q : St Val U → Prop} {ns : List String} {p : List Nat} (hP : Closed R P ns p)
    (hQ : Closed R Q ns p) {n : String} (hn : n ∈ ns) (x : Val) {b : Bool} {α : Type} {k k' : M Val U Err α}
    (h : Sim (fun s => P s ∧ s.labels n = some x) Q b k k') :
    Sim P Q b ((runSet (.user n) x : M Val U Err Unit) >>= fun _ => k) (setLabel n x >>= fun _ => k') := by
  intro s t hs hst
  obtain ⟨h1, h2⟩ := hst
  have key := h { s with labels := fun m => if m = n then some x else s.labels m }
    { t with labels := fun m => if m = n then some x else t.labels m }
    ⟨hP.user n hn x s hs, by simp⟩ ⟨by simp only [h1], h2⟩
  obtain ⟨g1, g2, g3, g4, g5⟩ := key
  exact ⟨g1, g2, g3.1, fun hq => g4 (hQ.user n hn x s hq), g5⟩

theorem ok_caching (hnone : NoneFalsy R) {c : Conv Val} (name : String) (labels : List String)
    {convs : List (Conv Val)} (hc : GenOk R fuel N A P0 c) (hi : ∀ c ∈ convs, GenOk R fuel N A P0 c) :
    GenOk R fuel N A P0 (.caching c name labels convs) := by
  refine GenOk.of_plain (by genok) (by genok) (by genok) ?_
  intro P Q m e p ρ v H hG
  simp only [Conv.args, Conv.sets] at H
  simp only [Good] at hG
  obtain ⟨hG, hn1, hn2, hG2⟩ := hG
  simp only [gen, fin, den, Conv.strict, Bool.false_eq_true, if_false, eval, evalBool]
  have h1 := hc.plain (H.sub (fun _ => List.mem_append_left _)
    (fun _ hn => List.mem_append_left _ (List.mem_append_right _ hn)) (prefix_step p 0)) hG
  have hne : ∃ a as, labelLines labels (genAll N convs (.getLabel (.user name)) (p ++ [1]) 0) ++
      [PyExpr.getLabel (.user name)] = a :: as := by
    cases labelLines labels (genAll N convs (.getLabel (.user name)) (p ++ [1]) 0) <;> simp
  obtain ⟨a, as, hne⟩ := hne
  have hrest := fun x (hx : May (den R fuel A c v) x) =>
    labels_ok (R := R) (fuel := fuel) (N := N) (A := A) (P0 := P0) (m := false) (ρ := ρ) (v := x)
      (P := fun s => P s ∧ s.labels name = some x) (Q := Q) (p := p ++ [1]) hnone name (fun s hs => hs.2)
      convs hi labels 0 (labels ++ setsAll convs) (fun _ => List.mem_append_left _)
      (fun _ => List.mem_append_right _)
      { sim := by
          intro s t hs hst
          have : eval R fuel (.getLabel (.user name)) ρ s = (.ok x, s) := by simp only [eval, runGet, hs.2]
          rw [this]
          exact ⟨rfl, hst, hs, id, by simp⟩
        keep := by
          intro q _ s hs
          simp only [eval, runGet, hs.2]
        agree := fun n hn => H.agree n (List.mem_append_right _ hn)
        cP := (H.cP.mono (by
            intro n hn
            simp only [List.mem_append] at hn
            simp only [List.cons_append, List.mem_cons, List.mem_append]
            rcases hn with hn | hn
            · exact Or.inr (Or.inl (Or.inl hn))
            · exact Or.inr (Or.inr hn)) (prefix_step p 1)).and
          (Closed.labelIs R (fun h => (List.mem_append.1 h).elim hn1 hn2) _)
        cQ := H.cQ.mono (by
            intro n hn
            simp only [List.mem_append] at hn
            simp only [List.cons_append, List.mem_cons, List.mem_append]
            rcases hn with hn | hn
            · exact Or.inr (Or.inl (Or.inl hn))
            · exact Or.inr (Or.inr hn)) (prefix_step p 1)
        p0 := fun s hs => H.p0 s hs.1 } (hG2 x hx)
  rw [hne] at hrest ⊢
  simp only [eval, bind_assoc', pure_bind', truthy_none hnone, if_true]
  refine Sim.bindL h1 (fun x hx => ?_)
  exact sim_set H.cP H.cQ (by simp) x (hrest x hx)

/-- After a part which establishes `J`. -/
theorem Sim.bindJ {P Q J : St Val U → Prop} {b : Bool} {α β : Type} {m d : M Val U Err α}
    {k k' : α → M Val U Err β} (h : Sim P Q b m d) (hJ : Sim P J true m d)
    (hk : ∀ x, May d x → Sim (fun s => P s ∧ J s) Q false (k x) (k' x)) :
    Sim P Q b (m >>= k) (d >>= k') := by
  intro s t hP hst
  obtain ⟨h1, h2, h3, h4, h5⟩ := h s t hP hst
  obtain ⟨_, _, _, _, j5⟩ := hJ s t hP hst
  rw [bind_run, bind_run]
  rcases hm : m s with ⟨r, s'⟩
  rcases hd : d t with ⟨r', t'⟩
  rw [hm] at h1 h2 h3 h4 h5 j5
  rw [hd] at h1 h2
  simp only at h1 h2 h3 h4 h5 j5
  subst h1
  cases r with
  | error e => exact ⟨rfl, h2, h3, h4, by simp⟩
  | ok x =>
    obtain ⟨g1, g2, g3, g4, g5⟩ := hk x ⟨t, t', hd⟩ s' t' ⟨h3, j5 trivial x rfl⟩ h2
    exact ⟨g1, g2, g3.1, fun hq => g4 (h4 hq), fun hb y hy => g4 (h5 hb x rfl)⟩

/-- The code caching the input in the condition of `If`. -/
theorem eval_ifCond (hnone : NoneFalsy R) {e : PyExpr Val} {p : List Nat} {ρ : Env Val} {v : Val}
    {s s' : St Val U} (hm : eval R fuel e ρ s = (.ok v, s')) :
    eval R fuel (.boolop false [.addLabel (.cached p) e, .getLabel (.cached p)]) ρ s =
      (.ok v, { s' with cached := fun r => if r = p then some v else s'.cached r }) := by
  simp only [eval, evalBool, bind_assoc', pure_bind', truthy_none hnone, if_true, bind_pure']
  rw [bind_run, hm]
  dsimp only
  rw [bind_run]
  simp only [runSet, runGet, if_true]

theorem sim_ifCond (hnone : NoneFalsy R) {P Q : St Val U → Prop} {m : Bool} {e : PyExpr Val} {p : List Nat}
    {ρ : Env Val} {v : Val} (hs : Sim P Q m (eval R fuel e ρ) (pure v))
    (hP : ∀ s, P s → P { s with cached := fun r => if r = p then some v else s.cached r })
    (hQ : ∀ s, Q s → Q { s with cached := fun r => if r = p then some v else s.cached r }) :
    Sim P Q m (eval R fuel (.boolop false [.addLabel (.cached p) e, .getLabel (.cached p)]) ρ) (pure v) := by
  intro s t hPs hst
  obtain ⟨h1, h2, h3, h4, h5⟩ := hs s t hPs hst
  rcases hm : eval R fuel e ρ s with ⟨r, s'⟩
  rw [hm] at h1 h2 h3 h4 h5
  have h1' : r = .ok v := h1
  subst h1'
  rw [eval_ifCond hnone hm]
  exact ⟨rfl, ⟨h2.1, h2.2⟩, hP s' h3, fun hq => hQ s' (h4 hq), fun hb x hx => hQ s' (h5 hb x hx)⟩

theorem sim_ifCond_cached (hnone : NoneFalsy R) {P Q : St Val U → Prop} {m : Bool} {e : PyExpr Val}
    {p : List Nat} {ρ : Env Val} {v : Val} (hs : Sim P Q m (eval R fuel e ρ) (pure v))
    (hP : ∀ s, P s → P { s with cached := fun r => if r = p then some v else s.cached r }) :
    Sim P (fun s => s.cached p = some v) true
      (eval R fuel (.boolop false [.addLabel (.cached p) e, .getLabel (.cached p)]) ρ) (pure v) := by
  intro s t hPs hst
  obtain ⟨h1, h2, h3, h4, h5⟩ := hs s t hPs hst
  rcases hm : eval R fuel e ρ s with ⟨r, s'⟩
  rw [hm] at h1 h2 h3 h4 h5
  have h1' : r = .ok v := h1
  subst h1'
  rw [eval_ifCond hnone hm]
  exact ⟨rfl, ⟨h2.1, h2.2⟩, hP s' h3, fun _ => by simp, fun _ _ _ => by simp⟩

theorem ok_ifc (hnone : NoneFalsy R) {c t f : Conv Val} (noCache : Bool) (hc : GenOk R fuel N A P0 c)
    (ht : GenOk R fuel N A P0 t) (hf : GenOk R fuel N A P0 f) :
    GenOk R fuel N A P0 (.ifc c t f noCache) := by
  refine GenOk.of_plain (by genok) (by genok) (by genok) ?_
  intro P Q m e p ρ v H hG
  simp only [Conv.args, Conv.sets] at H
  simp only [Good] at hG
  obtain ⟨g1, g2, g3, g4, g5⟩ := hG
  have hc_a : ∀ n ∈ c.args, n ∈ c.args ++ t.args ++ f.args :=
    fun _ hn => List.mem_append_left _ (List.mem_append_left _ hn)
  have ht_a : ∀ n ∈ t.args, n ∈ c.args ++ t.args ++ f.args :=
    fun _ hn => List.mem_append_left _ (List.mem_append_right _ hn)
  have hf_a : ∀ n ∈ f.args, n ∈ c.args ++ t.args ++ f.args := fun _ hn => List.mem_append_right _ hn
  have hc_s : ∀ n ∈ c.sets, n ∈ c.sets ++ t.sets ++ f.sets :=
    fun _ hn => List.mem_append_left _ (List.mem_append_left _ hn)
  have ht_s : ∀ n ∈ t.sets, n ∈ c.sets ++ t.sets ++ f.sets :=
    fun _ hn => List.mem_append_left _ (List.mem_append_right _ hn)
  have hf_s : ∀ n ∈ f.sets, n ∈ c.sets ++ t.sets ++ f.sets := fun _ hn => List.mem_append_right _ hn
  simp only [gen, fin, den, Conv.strict, Bool.false_eq_true, if_false, eval]
  by_cases hs : (inputIsSimple (render N e) || noCache) = true
  · simp only [ifCond, ifRes, hs, if_true] at g1 g2 g3 ⊢
    have k1 := hc true P Q m e (p ++ [0]) ρ v (H.sub hc_a hc_s (prefix_step p 0)) (fun _ => g4) g1
    have k2 := ht true P Q m e (p ++ [1]) ρ v (H.sub ht_a ht_s (prefix_step p 1)) (fun _ => g4) g2
    have k3 := hf true P Q m e (p ++ [2]) ρ v (H.sub hf_a hf_s (prefix_step p 2)) (fun _ => g4) g3
    refine Sim.bindL (k1.weaken ?_) (fun x _ => ?_)
    · simp only [Bool.and_eq_true, Bool.or_eq_true]
      exact fun hh => ⟨hh.1, Or.inl hh.2⟩
    · exact Sim.bindL (Sim.truthy H.cP H.cQ _) (fun b _ => Sim.iteTrue k2.none k3.none)
  · have hsimple : inputIsSimple (render N e) = false := by
      revert hs; cases inputIsSimple (render N e) <;> simp
    have hno : noCache = false := by
      revert hs; cases noCache <;> simp
    simp only [ifCond, ifRes, hs, if_false, Bool.false_eq_true] at g1 g2 g3 ⊢
    have ht' : TruthOk R P0 v := g4.resolve_left (by simp [hsimple])
    have g5' : (c.strict || attaches N true c
        (.boolop false [.addLabel (.cached p) e, .getLabel (.cached p)]) (p ++ [0])) = true := by
      simp only [hsimple, hno, Bool.false_eq_true, false_or] at g5
      simp only [Bool.or_eq_true]
      simpa only [ifCond, hsimple, Bool.or_self, Bool.false_eq_true, if_false] using g5
    have hPc : ∀ s, P s → P { s with cached := fun r => if r = p then some v else s.cached r } :=
      fun s hs => H.cP.cached p (List.prefix_refl p) v s hs
    have hkeep : ∀ q, p ++ [0] <+: q → ∀ s, P s → (eval R fuel
        (.boolop false [.addLabel (.cached p) e, .getLabel (.cached p)]) ρ s).2.cached q = s.cached q := by
      intro q hq s hs
      have h1 := (H.sim s s hs (St.Same.rfl' s)).1
      have h2 := H.keep q ((prefix_step p 0).trans hq) s hs
      rcases hm : eval R fuel e ρ s with ⟨r, s'⟩
      rw [hm] at h1 h2
      have h1' : r = .ok v := h1
      subst h1'
      rw [eval_ifCond hnone hm]
      have : q ≠ p := by
        rintro rfl
        exact not_prefix_step _ _ hq
      simpa [this] using h2
    have HQ : Hyp R fuel N A P0 P Q m (.boolop false [.addLabel (.cached p) e, .getLabel (.cached p)])
        (p ++ [0]) ρ v c.args c.sets :=
      { sim := sim_ifCond hnone H.sim hPc (fun s hs => H.cQ.cached p (List.prefix_refl p) v s hs)
        keep := hkeep
        agree := fun n hn => H.agree n (hc_a n hn)
        cP := H.cP.mono hc_s (prefix_step p 0)
        cQ := H.cQ.mono hc_s (prefix_step p 0)
        p0 := H.p0 }
    have HJ : Hyp R fuel N A P0 P (fun s => s.cached p = some v) true
        (.boolop false [.addLabel (.cached p) e, .getLabel (.cached p)]) (p ++ [0]) ρ v c.args c.sets :=
      { sim := sim_ifCond_cached hnone H.sim hPc
        keep := hkeep
        agree := fun n hn => H.agree n (hc_a n hn)
        cP := H.cP.mono hc_s (prefix_step p 0)
        cQ := Closed.cachedIs R (not_prefix_step p 0) _
        p0 := H.p0 }
    have k1 := hc true P Q m _ (p ++ [0]) ρ v HQ (fun _ => Or.inr ht') g1
    have k1' := hc true P _ true _ (p ++ [0]) ρ v HJ (fun _ => Or.inr ht') g1
    rw [g5', Bool.and_true] at k1'
    have HB : ∀ (i : Nat) (c' : Conv Val), (∀ n ∈ c'.args, n ∈ c.args ++ t.args ++ f.args) →
        (∀ n ∈ c'.sets, n ∈ c.sets ++ t.sets ++ f.sets) →
        Hyp R fuel N A P0 (fun s => P s ∧ s.cached p = some v) Q false (.getLabel (.cached p))
          (p ++ [i]) ρ v c'.args c'.sets := fun i c' ha hs' =>
      { sim := by
          intro s t hs hst
          have : eval R fuel (.getLabel (.cached p)) ρ s = (.ok v, s) := by simp only [eval, runGet, hs.2]
          rw [this]
          exact ⟨rfl, hst, hs, id, by simp⟩
        keep := by
          intro q _ s hs
          simp only [eval, runGet, hs.2]
        agree := fun n hn => H.agree n (ha n hn)
        cP := (H.cP.mono hs' (prefix_step p i)).and (Closed.cachedIs R (not_prefix_step p i) _)
        cQ := H.cQ.mono hs' (prefix_step p i)
        p0 := fun s hs => H.p0 s hs.1 }
    have k2 := ht true _ Q false _ (p ++ [1]) ρ v (HB 1 t ht_a ht_s) (fun _ => Or.inr ht') g2
    have k3 := hf true _ Q false _ (p ++ [2]) ρ v (HB 2 f hf_a hf_s) (fun _ => Or.inr ht') g3
    refine Sim.bindJ (k1.weaken ?_) k1' (fun x _ => ?_)
    · simp only [Bool.and_eq_true, Bool.or_eq_true]
      exact fun hh => ⟨hh.1, Or.inl hh.2⟩
    · refine Sim.bindL (Sim.truthy (p := p ++ [0]) (ns := c.sets) ?_ (H.cQ.mono hc_s (prefix_step p 0)) _)
        (fun b _ => Sim.iteTrue k2.none k3.none)
      exact (H.cP.mono hc_s (prefix_step p 0)).and (Closed.cachedIs R (not_prefix_step p 0) _)

theorem ok_pipe {a b : Conv Val} (ha : GenOk R fuel N A P0 a) (hb : GenOk R fuel N A P0 b) :
    GenOk R fuel N A P0 (.pipe a b) := by
  intro esc P Q m e p ρ v H ht hG
  simp only [Conv.args, Conv.sets] at H
  simp only [Good] at hG
  obtain ⟨g1, g2⟩ := hG
  have ha_a : ∀ n ∈ a.args, n ∈ a.args ++ b.args := fun _ => List.mem_append_left _
  have hb_a : ∀ n ∈ b.args, n ∈ a.args ++ b.args := fun _ => List.mem_append_right _
  have ha_s : ∀ n ∈ a.sets, n ∈ a.sets ++ b.sets := fun _ => List.mem_append_left _
  have hb_s : ∀ n ∈ b.sets, n ∈ a.sets ++ b.sets := fun _ => List.mem_append_right _
  rcases g2 with ⟨x, hst, htx, g2⟩ | ⟨g2, g3, g4⟩
  rotate_left
  · -- the first stage is evaluated once
    have k1 := ha esc P Q m e (p ++ [0]) ρ v (H.sub ha_a ha_s (prefix_step p 0)) ht g1
    rw [gen_pipe, attachTo_sub (sub_once _ b g2 false _ _),
      once_ok _ b g2 _ _ ρ g3 id, den]
    refine (Sim.bindL k1 (fun x hx => ?_)).weaken ?_
    · refine (hb.plain (m := false) (e := .given _ x) (p := p ++ [1]) (ρ := ρ) (v := x) ?_ (g4 x hx)).none
      exact
        { sim := by
            simp only [eval]
            exact Sim.pure _
          keep := fun q _ s _ => by
            simp only [eval]
            rfl
          agree := fun n hn => H.agree n (hb_a n hn)
          cP := H.cP.mono hb_s (prefix_step p 1)
          cQ := H.cQ.mono hb_s (prefix_step p 1)
          p0 := H.p0 }
    · simp only [attaches, Conv.strict, Bool.or_false, Bool.and_eq_true, Bool.or_eq_true]
      exact fun hh => ⟨hh.1, Or.inl hh.2.1⟩
  -- the first stage gives `x`
  have first : ∀ (J : St Val U → Prop) (m' : Bool), Sim P J m' (eval R fuel (gen N esc a e (p ++ [0])) ρ)
      (den R fuel A a v) → Sim P J m' (eval R fuel (gen N esc a e (p ++ [0])) ρ) (pure x) := by
    intro J m' h s t hs hst'
    have := h s t hs hst'
    rw [hst t (by rw [← hst'.1, ← hst'.2]; exact H.p0 s hs)] at this
    exact this
  have k1 := first Q _ (ha esc P Q m e (p ++ [0]) ρ v (H.sub ha_a ha_s (prefix_step p 0)) ht g1)
  have hkeep : ∀ q, p ++ [1] <+: q → ∀ s, P s →
      (eval R fuel (gen N esc a e (p ++ [0])) ρ s).2.cached q = s.cached q := by
    intro q hq s hs
    have := ha esc P (fun s' => s'.cached q = s.cached q) false e (p ++ [0]) ρ v
      (H.atCached ha_a ha_s (prefix_step p 0) ((prefix_step p 1).trans hq)
        (prefix_disjoint hq (by decide)) _) ht g1
    exact (this s s hs (St.Same.rfl' s)).2.2.2.1 rfl
  have HB : Hyp R fuel N A P0 P Q (m && (a.strict || attaches N esc a e (p ++ [0])))
      (gen N esc a e (p ++ [0])) (p ++ [1]) ρ x b.args b.sets :=
    { sim := k1
      keep := hkeep
      agree := fun n hn => H.agree n (hb_a n hn)
      cP := H.cP.mono hb_s (prefix_step p 1)
      cQ := H.cQ.mono hb_s (prefix_step p 1)
      p0 := H.p0 }
  have k2 := hb.plain HB g2
  have k3 := sim_attachTo (N := N) k1 H.p0 (Or.inr htx) k2
  simp only [gen, den]
  intro s t hs hst'
  have hk := k3 s t hs hst'
  have hd : (den R fuel A a v >>= fun y => den R fuel A b y) t = den R fuel A b x t := by
    rw [bind_run, hst t (by rw [← hst'.1, ← hst'.2]; exact H.p0 s hs)]
  rw [hd]
  obtain ⟨q1, q2, q3, q4, q5⟩ := hk
  refine ⟨q1, q2, q3, q4, ?_⟩
  intro hm
  apply q5
  revert hm
  simp only [attaches, Conv.strict, Bool.or_false, Bool.and_eq_true, Bool.or_eq_true]
  rintro ⟨h1, h2, h3⟩
  exact Or.inl ⟨⟨h1, Or.inl h2⟩, h3⟩

end

end Verif.Expr
