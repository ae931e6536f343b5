import Verif.Exec.Lemmas

/-!
# Exec: running the syntax tree does what the generated code means

`same_run`: evaluating a generated expression (`eval`, `Verif/Expr/Model.lean`) and running the syntax tree of its text
in a module which has the functions it calls do the same.
-/

set_option autoImplicit false

namespace Verif.Exec

open Verif.Expr Verif.Text

section
variable {Val U Err : Type} {N : Names Val} {R : Runtime Val U Err} {G : Globals Val} {fuel : Nat}

theorem Defined.left {as bs : List (PyExpr Val)} (h : Defined N G (as ++ bs)) : Defined N G as :=
  fun d hd => h d (List.mem_append_left _ hd)

theorem Defined.right {as bs : List (PyExpr Val)} (h : Defined N G (as ++ bs)) : Defined N G bs :=
  fun d hd => h d (List.mem_append_right _ hd)

theorem Defined.tail {a : PyExpr Val} {bs : List (PyExpr Val)} (h : Defined N G (a :: bs)) : Defined N G bs :=
  fun d hd => h d (List.mem_cons_of_mem _ hd)

theorem Defined.head {a : PyExpr Val} {bs : List (PyExpr Val)} (h : Defined N G (a :: bs)) :
    G (helperName a) = some (.def_ (helperDef N a)) ∧ isConstName (helperName a) = false :=
  h a List.mem_cons_self

theorem pure_bind_eq {α β : Type} (x : α) (k : α → M Val U Err β) : (Pure.pure x >>= k) = k x := rfl

/-- Constants. -/
theorem same_lit (hR : PyConsts R N) (C : Calls Val U Err) (l : Lit Val) (hl : litOk N G l) {ρ : Env Val}
    (hρ : Clear G ρ) : Same N (Pure.pure (R.lit l)) (run R fuel G C (litTree N l) ρ) := by
  cases l with
  | none => simp only [litTree, run, lookup, if_true]; exact Same.pure _
  | bool b =>
    cases b <;>
    · simp only [litTree, run, lookup]
      exact Same.pure _
  | int i =>
    cases i with
    | ofNat n => simp only [litTree, run]; exact Same.pure _
    | negSucc n =>
      have : run R fuel G C (litTree N (.int (.negSucc n))) ρ = Pure.pure (R.int (.negSucc n)) := by
        funext s
        simp only [litTree, run, pure_bind_eq, runOp, hR.neg (n + 1) s.u]
        rfl
      rw [this]
      exact Same.pure _
  | str s =>
    simp only [litTree, run, String.ofList_toList]
    exact Same.pure _
  | obj v =>
    obtain ⟨h1, h2⟩ := hl
    have hc := h2
    simp only [isConstName, Bool.or_eq_false_iff, beq_eq_false_iff_ne, ne_eq] at hc
    simp only [litTree, run, lookup, if_neg hc.1.1, if_neg hc.1.2, if_neg hc.2, hρ _ (by rw [h1]; rfl), h1]
    exact Same.pure _

/-- Called expressions of a conversion are values, not functions of the module. -/
theorem callee_tree (hM : Module G) {ρ : Env Val} : ∀ (e : PyExpr Val), Own N G e → callee G ρ (tree N e) = none
  | .name n, h => by rw [tree]; exact callee_var h
  | .const l, h => by
    cases l with
    | none => simp [tree, litTree, callee, isConstName]
    | bool b => cases b <;> simp [tree, litTree, callee, isConstName]
    | int i => cases i <;> simp [tree, litTree, callee]
    | str s => simp [tree, litTree, callee]
    | obj v =>
      simp only [Own, litOk] at h
      simp only [tree, litTree, callee, h.1]
      cases ρ (N.const (.obj v)) <;> simp
  | .getLabel _, _ => by simp [tree, callee]
  | .addLabel _ _, _ => by simp [tree, callee]
  | .attach _ _, _ => by simp [tree, callee]
  | .sub _ _, _ => by simp [tree, callee]
  | .dot _ _, _ => by simp [tree, callee]
  | .getattr _ _, _ => by simp [tree, callee]
  | .call _ _ _, _ => by simp [tree, callee]
  | .boolop _ _, _ => by simp [tree, callee]
  | .eqs [], h => by simp [Own] at h
  | .eqs (_ :: _), _ => by simp [tree, treeAll, callee]
  | .not _, _ => by simp [tree, callee]
  | .bin o _ _, _ => by cases o <;> simp [tree, opTree, callee]
  | .neg _, _ => by simp [tree, callee]
  | .ifexp _ _ _, _ => by simp [tree, callee]
  | .comp k _ _ _ _ _ _ sort, _ => by
    cases sort <;> cases k <;> simp [tree, sortTree, callee]
  | .display k _, _ => by cases k <;> simp [tree, callee]
  | .getOrDefault _ _ _ _ _ _, _ => by simp [tree, callee]
  | .optItems _ _ _ _ _ _, _ => by simp [tree, callee]
  | .optDict _ _ _ _ _, _ => by simp [tree, callee]
  | .tap _ _ _ _, _ => by simp [tree, callee]
  | .setattr _ _ _, _ => by simp [tree, callee]
  | .pop _ _, _ => by simp [tree, callee]
  | .delattr _ _, _ => by simp [tree, callee]
  | .setitem _ _ _, h => by simp [Own] at h
  | .bad _, h => by simp [Own] at h
  | .given _ _, h => by simp [Own] at h

/-- The variables of `get_or_default`. -/
theorem bind_default (g : Bool) (s o d : Val) :
    bind ((if g then ["self_"] else []) ++ ["obj_", "default_"]) ((if g then [s] else []) ++ [o, d]) =
      defaultEnv g s o d := by
  funext n
  cases g <;> simp only [Bool.false_eq_true, if_true, if_false, List.nil_append, List.cons_append, bind, Env.set,
    defaultEnv]
  by_cases h : n = "self_"
  · subst h; simp
  · rw [if_neg h]

theorem clear_default (hM : Module G) (g : Bool) (s o d : Val) : Clear G (defaultEnv g s o d) := by
  intro n hn
  unfold defaultEnv
  have h1 : n ≠ "self_" := by rintro rfl; simp [hM.self] at hn
  have h2 : n ≠ "obj_" := by rintro rfl; simp [hM.input] at hn
  have h3 : n ≠ "default_" := by rintro rfl; simp [hM.dflt] at hn
  simp [h1, h2, h3]

/-- Arguments passed on to a function: the variables are evaluated, and bound to the parameters. -/
theorem same_helperEnv {β : Type} (C : Calls Val U Err) {ρ : Env Val} (hM : Module G) (o : Val)
    {k : Env Val → M Val U Err β} {k' : List Val → M Val U Err β} : ∀ (args : List String), argsOk G args →
    (∀ (ρ' : Env Val) (vs : List Val), Clear G ρ' → vs.length = args.length →
      ρ' = bind ("data_" :: args) (o :: vs) → Same N (k ρ') (k' vs)) →
    Same N (helperEnv R ρ o args >>= k) (runAll R fuel G C (args.map .name) ρ >>= k')
  | [], _, h => by
    simp only [helperEnv, List.map_nil, runAll, pure_bind_eq]
    refine h _ [] ?_ rfl ?_
    · intro n hn
      show (if n = "data_" then some o else none) = none
      rw [if_neg]
      rintro rfl
      simp [hM.data] at hn
    · funext n
      simp [bind, Env.set]
  | a :: as, ha, h => by
    have hassoc : (helperEnv R ρ o (a :: as) >>= k) = (runName R ρ a >>= fun x => helperEnv R ρ o as >>= fun ρ' =>
        k (ρ'.set a x)) := by
      funext s
      simp only [helperEnv, Bind.bind]
      cases runName R ρ a s with
      | mk r s' =>
        cases r with
        | error e => rfl
        | ok x =>
          dsimp only
          cases helperEnv R ρ o as s' with
          | mk r s'' => cases r <;> rfl
    have hassoc' : (runAll R fuel G C ((a :: as).map .name) ρ >>= k') = (lookup R G ρ a >>= fun x =>
        runAll R fuel G C (as.map .name) ρ >>= fun xs => k' (x :: xs)) := by
      funext s
      simp only [List.map_cons, runAll, run, Bind.bind]
      cases lookup R G ρ a s with
      | mk r s' =>
        cases r with
        | error e => rfl
        | ok x =>
          dsimp only
          cases runAll R fuel G C (as.map .name) ρ s' with
          | mk r s'' => cases r <;> rfl
    rw [hassoc, hassoc']
    have hav := ha a List.mem_cons_self
    refine (Same.name hav.1).bind (fun x => ?_)
    refine same_helperEnv C hM o as (fun b hb => ha b (List.mem_cons_of_mem _ hb)) (fun ρ' vs hc hl he => ?_)
    refine h (ρ'.set a x) (x :: vs) (hc.set hav.1 x) (by simp [hl]) ?_
    subst he
    funext n
    simp only [bind, Env.set]
    by_cases h1 : n = a
    · subst h1
      rw [if_pos rfl, if_neg hav.2, if_pos rfl]
    · rw [if_neg h1, if_neg h1]

/-- The items of a comprehension. -/
theorem same_comp (gen : Bool) {src src' : M Val U Err Val} {cond cond' : Val → M Val U Err Bool}
    {elt elt' : Val → M Val U Err (List Val)} (hs : Same N src src') (hc : ∀ x, Same N (cond x) (cond' x))
    (he : ∀ x, Same N (elt x) (elt' x)) :
    Same N (compItems R fuel gen src cond elt) (compItems R fuel gen src' cond' elt') := by
  unfold compItems
  refine hs.bind (fun s => (Same.op _ _).bind (fun it => ?_))
  have hl := Same.loop (R := R) (N := N) it (body := fun x => do
    let keep ← cond x
    if keep = true then elt x else Pure.pure []) (body' := fun x => do
    let keep ← cond' x
    if keep = true then elt' x else Pure.pure []) (fun x => (hc x).bind (fun b => by
      cases b with
      | true => exact he x
      | false => exact Same.pure _)) fuel
  cases gen with
  | true => exact hl.inGen
  | false => exact hl

theorem bind_bind {α β γ : Type} (m : M Val U Err α) (f : α → M Val U Err β) (g : β → M Val U Err γ) :
    ((m >>= f) >>= g) = (m >>= fun x => f x >>= g) := by
  funext s
  simp only [Bind.bind]
  cases m s with
  | mk r s' => cases r <;> rfl

theorem bind_pure_eq {α : Type} (m : M Val U Err α) : (m >>= fun x => Pure.pure x) = m := by
  funext s
  simp only [Bind.bind]
  cases h : m s with
  | mk r s' => cases r <;> rfl

/-- The condition of a comprehension, in generated code. -/
def condOf (R : Runtime Val U Err) (hasCond : Bool) (c : M Val U Err Val) : M Val U Err Bool :=
  if hasCond then (do
    let x ← c
    runTruthy R x)
  else Pure.pure true

theorem eval_comp (k : Kind) (item value : PyExpr Val) (var : String) (iter : PyExpr Val) (hasCond : Bool)
    (cond : PyExpr Val) (sort : Option (Lit Val × Bool)) (ρ : Env Val) :
    eval R fuel (.comp k item value var iter hasCond cond sort) ρ =
      (compItems R fuel (viaGen k sort) (eval R fuel iter ρ)
        (fun x => condOf R hasCond (eval R fuel cond (ρ.set var x)))
        (fun x => addItem R k sort (eval R fuel item (ρ.set var x)) (eval R fuel value (ρ.set var x))) >>=
      finish R k sort) := by
  simp only [eval, compItems, bind_bind]
  cases viaGen k sort <;> cases hasCond <;>
    simp only [condOf, if_true, if_false, Bool.false_eq_true, bind_bind]

/-- `sorted(…, key=…, reverse=…)`. -/
theorem same_sorted (hR : PyConsts R N) (hM : Module G) (C : Calls Val U Err) {ρ : Env Val} (hρ : Clear G ρ)
    (key : Lit Val) (hkey : litOk N G key) (rev : Bool) {a : Ast} {items : M Val U Err (List Val)}
    (h : Same N items (feed R fuel G C none a ρ)) :
    Same N (items >>= fun xs => runOp R .sorted (R.lit key :: R.bool rev :: xs))
      (run R fuel G C (.call (.name "sorted") [a, litTree N key, litTree N (.bool rev)] ["key", "reverse"]) ρ) := by
  simp only [run, callee_builtin hρ hM.sorted (by decide), runBuiltin, if_true]
  refine h.bind (fun xs => ?_)
  rw [← pure_bind_eq (R.lit key) (fun y => runOp R .sorted (y :: R.bool rev :: xs))]
  refine (same_lit hR C key hkey hρ).bind (fun y => ?_)
  rw [← pure_bind_eq (R.bool rev) (fun z => runOp R .sorted (y :: z :: xs))]
  exact (same_lit hR C (.bool rev) trivial hρ).bind (fun z => Same.op _ _)

/-- Comprehensions. -/
theorem same_compExpr (hR : PyConsts R N) (hM : Module G) (C : Calls Val U Err) {ρ : Env Val} (hρ : Clear G ρ)
    (k : Kind) (item value : PyExpr Val) {var : String} (hvar : varName G var) (iter : PyExpr Val) (hasCond : Bool)
    (cond : PyExpr Val) (sort : Option (Lit Val × Bool)) (hk : ¬ (k = .set ∧ sort.isSome))
    (hs : ∀ kr, sort = some kr → litOk N G kr.1)
    (hiter : Same N (eval R fuel iter ρ) (run R fuel G C (tree N iter) ρ))
    (hitem : ∀ ρ', Clear G ρ' → Same N (eval R fuel item ρ') (run R fuel G C (tree N item) ρ'))
    (hvalue : ∀ ρ', Clear G ρ' → Same N (eval R fuel value ρ') (run R fuel G C (tree N value) ρ'))
    (hcond : ∀ ρ', Clear G ρ' → Same N (eval R fuel cond ρ') (run R fuel G C (tree N cond) ρ')) :
    Same N (eval R fuel (.comp k item value var iter hasCond cond sort) ρ)
      (run R fuel G C (tree N (.comp k item value var iter hasCond cond sort)) ρ) := by
  rw [eval_comp]
  have hc : ∀ x, Same N (condOf R hasCond (eval R fuel cond (ρ.set var x)))
      (runCond R fuel G C (if hasCond then [tree N cond] else []) (ρ.set var x)) := by
    intro x
    cases hasCond with
    | true =>
      simp only [condOf, if_true, runCond]
      exact (hcond _ (hρ.set hvar x)).bind (fun _ => Same.truthy _)
    | false =>
      simp only [condOf, Bool.false_eq_true, if_false, runCond]
      exact Same.pure _
  have h1 : ∀ x, Same N (do
      let a ← eval R fuel item (ρ.set var x)
      Pure.pure [a]) (runElt R fuel G C .list [tree N item] (ρ.set var x)) := by
    intro x
    simp only [runElt]
    exact (hitem _ (hρ.set hvar x)).bind (fun _ => Same.pure _)
  cases sort with
  | none =>
    cases k with
    | list =>
      simp only [tree, sortTree, run, addItem, viaGen]
      exact (same_comp _ hiter hc h1).bind (fun _ => Same.op _ _)
    | tuple =>
      simp only [tree, sortTree, Option.isSome_none, Bool.false_eq_true, if_false, run,
        callee_builtin hρ hM.tuple (by decide), runBuiltin, lazyArg, if_true, feed, addItem, viaGen]
      simp only [reduceCtorEq, ne_eq, not_false_eq_true, and_self, false_and, or_false, if_true, Option.some.injEq,
        beq_self_eq_true]
      exact (same_comp _ hiter hc h1).bind (fun _ => Same.op _ _)
    | set =>
      simp only [tree, sortTree, run, addItem, viaGen]
      refine (same_comp _ hiter hc (fun x => ?_)).bind (fun _ => Same.op _ _)
      simp only [runElt]
      exact (hitem _ (hρ.set hvar x)).bind (fun _ => (Same.op _ _).bind (fun _ => Same.pure _))
    | dict =>
      simp only [tree, sortTree, Option.isSome_none, Bool.false_eq_true, if_false, run, addItem, viaGen]
      refine (same_comp _ hiter hc (fun x => ?_)).bind (fun _ => Same.op _ _)
      simp only [runElt, runAll, bind_bind, pure_bind_eq]
      exact (hitem _ (hρ.set hvar x)).bind (fun _ => (hvalue _ (hρ.set hvar x)).bind (fun _ =>
        (Same.op _ _).bind (fun _ => Same.pure _)))
  | some kr =>
    obtain ⟨key, rev⟩ := kr
    cases k with
    | set => exact absurd ⟨rfl, rfl⟩ hk
    | list =>
      simp only [tree, sortTree, addItem, viaGen]
      have := same_sorted (fuel := fuel) hR hM C hρ key (hs _ rfl) rev (a := .comp .list [tree N item] var (tree N iter)
        (if hasCond then [tree N cond] else [])) (by
          rw [feed, if_pos (Or.inr ⟨rfl, rfl⟩)]
          exact same_comp false hiter hc h1)
      have hf : finish R .list (some (key, rev)) = fun xs => runOp R .sorted (R.lit key :: R.bool rev :: xs) := by
        funext xs
        simp only [finish, bind_pure_eq]
      rw [hf]
      exact this
    | tuple =>
      simp only [tree, sortTree, Option.isSome_some, if_true, addItem, viaGen]
      have := same_sorted (fuel := fuel) hR hM C hρ key (hs _ rfl) rev (a := .comp .gen [tree N item] var (tree N iter)
        (if hasCond then [tree N cond] else [])) (by
          rw [feed, if_pos (Or.inl ⟨rfl, by simp, by simp⟩)]
          exact same_comp true hiter hc h1)
      rw [run, callee_builtin hρ hM.tuple (by decide)]
      simp only [runBuiltin, lazyArg, callee_builtin hρ hM.sorted (by decide), Bool.false_eq_true, if_false, finish]
      have h2 := this.bind (k := fun s => runOp R .toTuple [s]) (k' := fun s => runOp R .toTuple [s])
        (fun s => Same.op _ _)
      rw [bind_bind] at h2
      exact h2
    | dict =>
      simp only [tree, sortTree, Option.isSome_some, if_true, addItem, viaGen]
      have h2 : ∀ x, Same N (do
          let a ← eval R fuel item (ρ.set var x)
          let b ← eval R fuel value (ρ.set var x)
          let t ← runOp R (.mk .tuple) [a, b]
          Pure.pure [t]) (runElt R fuel G C .list [.display .tuple [tree N item, tree N value]] (ρ.set var x)) := by
        intro x
        simp only [runElt, run, runAll, bind_bind, pure_bind_eq]
        exact (hitem _ (hρ.set hvar x)).bind (fun _ => (hvalue _ (hρ.set hvar x)).bind (fun _ =>
          (Same.op _ _).bind (fun _ => Same.pure _)))
      have := same_sorted (fuel := fuel) hR hM C hρ key (hs _ rfl) rev
        (a := .comp .gen [.display .tuple [tree N item, tree N value]] var (tree N iter)
        (if hasCond then [tree N cond] else [])) (by
          rw [feed, if_pos (Or.inl ⟨rfl, by simp, by simp⟩)]
          exact same_comp true hiter hc h2)
      rw [run, callee_builtin hρ hM.orderedDict (by decide)]
      simp only [runBuiltin, finish]
      have h3 := this.bind (k := fun s => runOp R .orderedDict [s]) (k' := fun s => runOp R .orderedDict [s])
        (fun s => Same.op _ _)
      rw [bind_bind] at h3
      exact h3

end

end Verif.Exec
