import Verif.Exec.Correct

/-!
# Exec: the induction

`same_run`: evaluating a generated expression and running its syntax tree do the same, in every module which has the
functions defined along with the expression.
-/

set_option autoImplicit false

namespace Verif.Exec

open Verif.Expr Verif.Text

section
variable {Val U Err : Type} {N : Names Val} {R : Runtime Val U Err} {G : Globals Val} {fuel : Nat}

theorem max_le_left {a b n : Nat} (h : max a b ≤ n) : a ≤ n := Nat.le_trans (Nat.le_max_left _ _) h
theorem max_le_right {a b n : Nat} (h : max a b ≤ n) : b ≤ n := Nat.le_trans (Nat.le_max_right _ _) h

/-- A call of a function of the module with positional arguments. -/
theorem run_def {C : Calls Val U Err} {ρ : Env Val} (hρ : Clear G ρ) {f : String} {d : Def}
    (h : G f = some (.def_ d) ∧ isConstName f = false) (args : List Ast) :
    run R fuel G C (.call (.name f) args []) ρ = (runAll R fuel G C args ρ >>= fun ys => C.call d ys) := by
  simp only [run, callee_def hρ h.1 h.2, List.isEmpty_nil, if_true]

/-- A builtin consuming a generator function of the module. -/
theorem run_feed {C : Calls Val U Err} {ρ : Env Val} (hρ : Clear G ρ) {f : String} {k : Kind} {d : Def}
    (hk : G (kindName k) = some (.builtin (.kind k))) (hd : yieldsAny d.body = true)
    (h : G f = some (.def_ d) ∧ isConstName f = false) (args : List Ast) :
    run R fuel G C (.call (.name (kindName k)) [.call (.name f) args []] []) ρ =
      (runAll R fuel G C args ρ >>= fun ys => C.feed k d ys >>= fun xs => runOp R (.mk k) xs) := by
  have hn : isConstName (kindName k) = false := by cases k <;> decide
  simp only [run, callee_builtin hρ hk hn, runBuiltin, lazyArg, callee_def hρ h.1 h.2, hd, if_true, feed,
    List.isEmpty_nil, bind_bind]

theorem Module.kind (hM : Module G) (k : Kind) : G (kindName k) = some (.builtin (.kind k)) := by
  cases k with
  | list => exact hM.list
  | tuple => exact hM.tuple
  | set => exact hM.set
  | dict => exact hM.dict

theorem lookup_data (hM : Module G) {ps : List String} {o : Val} {vs : List Val} :
    lookup R G (bind ("data_" :: ps) (o :: vs)) "data_" = (Pure.pure o : M Val U Err Val) := by
  have h : varName G "data_" := ⟨hM.data, by decide⟩
  rw [lookup_var h]
  simp [runName, bind, Env.set]

theorem lookup_default (hM : Module G) (g : Bool) (s o d : Val) :
    lookup R G (defaultEnv g s o d) "default_" = (Pure.pure d : M Val U Err Val) := by
  have h : varName G "default_" := ⟨hM.dflt, by decide⟩
  rw [lookup_var h]
  simp [runName, defaultEnv]

theorem stmtTree_expr {e : PyExpr Val} (h : ∀ o k v, e ≠ .setitem o k v) : stmtTree N e = .expr (tree N e) := by
  cases e <;> first | rfl | exact absurd rfl (h _ _ _)

theorem ownStmts_expr {e : PyExpr Val} (h : ∀ o k v, e ≠ .setitem o k v) (es : List (PyExpr Val)) :
    OwnStmts N G (e :: es) = (Own N G e ∧ OwnStmts N G es) := by
  cases e <;> first | exact absurd rfl (h _ _ _) | simp only [OwnStmts]

/-- One statement which is an expression. -/
theorem stmts_step {C : Calls Val U Err} {e : PyExpr Val} (hs : ∀ a b c, e ≠ .setitem a b c)
    {es : List (PyExpr Val)} {last : List Stmt.Stmt} {ρ : Env Val} {o : Val}
    (h : Same N (eval R fuel e ρ) (run R fuel G C (tree N e) ρ))
    (hr : Same N (evalAll R fuel es ρ >>= fun _ => Pure.pure o)
      (execAll R fuel G C (es.map (stmtTree N) ++ last) ρ >>= result R)) :
    Same N (evalAll R fuel (e :: es) ρ >>= fun _ => Pure.pure o)
      (execAll R fuel G C ((e :: es).map (stmtTree N) ++ last) ρ >>= result R) := by
  simp only [evalAll, List.map_cons, List.cons_append, stmtTree_expr hs, execAll, exec, bind_bind, pure_bind_eq]
  exact h.bind (fun _ => hr)

theorem yields_item (flag : Bool) (c e : Ast) : yields (itemStmt flag c e) = true := by
  cases flag <;> rfl

theorem yields_items {flags : List Bool} {body : List (PyExpr Val)} {args : List String}
    (h : itemsOk 2 flags body args) : yieldsAny (itemStmts flags (treeAll N body)) = true := by
  obtain ⟨h1, h2, _⟩ := h
  match flags, body, h1, h2 with
  | flag :: flags, c :: e :: es, _, _ => simp only [treeAll, itemStmts, yieldsAny, yields_item, Bool.true_or]

theorem yields_pairs {flags : List Bool} {body : List (PyExpr Val)} {args : List String}
    (h : itemsOk 3 flags body args) : yieldsAny (pairStmts flags (treeAll N body)) = true := by
  obtain ⟨h1, h2, _⟩ := h
  match flags, body, h1, h2 with
  | flag :: flags, c :: k :: e :: es, _, _ => simp only [treeAll, pairStmts, yieldsAny, yields_item, Bool.true_or]

theorem yields_stmt (e : PyExpr Val) : yields (stmtTree N e) = false := by
  cases e <;> rfl

theorem yields_tap : ∀ stmts : List (PyExpr Val),
    yieldsAny (stmts.map (stmtTree N) ++ [.ret (.name "data_")]) = false
  | [] => rfl
  | e :: es => by
    simp only [List.map_cons, List.cons_append, yieldsAny, yields_stmt, yields_tap es, Bool.or_false]

/-- The exceptions caught by `get_or_default` (base.py 177). -/
theorem catches_default (hM : Module G) {ρ : Env Val} (hρ : Clear G ρ) (e : Err) :
    catches R G ρ (.display .tuple
      [.name "TypeError", .name "KeyError", .name "IndexError", .name "AttributeError"]) e = some (R.caught e) := by
  have h1 := hρ "TypeError" (by rw [hM.typeError]; rfl)
  have h2 := hρ "KeyError" (by rw [hM.keyError]; rfl)
  have h3 := hρ "IndexError" (by rw [hM.indexError]; rfl)
  have h4 := hρ "AttributeError" (by rw [hM.attributeError]; rfl)
  simp only [catches, List.map_cons, List.map_nil, excName, h1, h2, h3, h4, hM.typeError, hM.keyError, hM.indexError,
    hM.attributeError, if_true]

theorem onError_ret (m : M Val U Err Val) (h : Err → M Val U Err (Flow Val)) (k : Flow Val → M Val U Err Val)
    (hk : ∀ v, k (.ret v) = Pure.pure v) :
    (onError (m >>= fun v => Pure.pure (.ret v)) h >>= k) = onError m (fun e => h e >>= k) := by
  funext s
  simp only [Bind.bind, onError]
  cases m s with
  | mk r s' =>
    cases r with
    | ok x => exact congrFun (hk x) s'
    | error e => rfl

/-- A call of `get_or_default`. -/
theorem call_default (hM : Module G) (C : Calls Val U Err) (g : Bool) (s o d : Val) (b : Ast) :
    callDef R fuel G C ⟨(if g then ["self_"] else []) ++ ["obj_", "default_"], [], [globalStmt, defaultStmt b]⟩
        ((if g then [s] else []) ++ [o, d]) =
      onError (run R fuel G C b (defaultEnv g s o d)) (fun e => if R.caught e then Pure.pure d else fail e) := by
  have hl : ((if g then [s] else []) ++ [o, d]).length =
      ((if g then ["self_"] else []) ++ ["obj_", "default_"]).length := by cases g <;> rfl
  have hy : yieldsAny [globalStmt, defaultStmt b] = false := rfl
  have ha : assignsAny [.ret b] = false := rfl
  unfold callDef
  rw [if_pos ⟨hl, rfl, hy⟩, bind_default]
  simp only [globalStmt, defaultStmt, execAll, exec, ha, Bool.false_eq_true, if_false, pure_bind_eq, bind_bind, run,
    catches_default hM (clear_default hM g s o d)]
  rw [onError_ret]
  · congr 1
    funext e
    cases R.caught e with
    | true => simp only [if_true, lookup_default hM, pure_bind_eq, result]
    | false =>
      simp only [Bool.false_eq_true, if_false]
      rfl
  · intro v
    rfl

section
variable (hR : PyConsts R N) (hM : Module G) (hc : ∀ p q, N.cached p = N.cached q → p = q)
include hR hM hc

set_option maxHeartbeats 1600000 in
mutual

/-- Evaluating a generated expression, and running its syntax tree. -/
theorem same_run : ∀ (e : PyExpr Val) (n : Nat) (ρ : Env Val), Own N G e → Defined N G (helpers e) → depth e ≤ n →
    Clear G ρ → Same N (eval R fuel e ρ) (run R fuel G (calls R fuel G n) (tree N e) ρ)
  | .name x, n, ρ, ho, hd, hn, hρ => by
    simp only [eval, tree, run]
    exact Same.name ho
  | .const l, n, ρ, ho, hd, hn, hρ => by
    simp only [eval, tree]
    simp only [Own] at ho
    exact same_lit hR _ l ho hρ
  | .getLabel l, n, ρ, ho, hd, hn, hρ => by
    simp only [eval, tree, run, callee_builtin hρ hM.getLabel (by decide), runBuiltin, String.ofList_toList]
    exact Same.get hR ho
  | .addLabel l e, n, ρ, ho, hd, hn, hρ => by
    simp only [Own] at ho
    simp only [helpers] at hd
    simp only [depth] at hn
    simp only [eval, tree, run, callee_builtin hρ hM.addLabel (by decide), runBuiltin, String.ofList_toList]
    exact (same_run e n ρ ho.2 hd hn hρ).bind (fun x => (Same.set hc ho.1 x).bind (fun _ => Same.pure _))
  | .attach a b, n, ρ, ho, hd, hn, hρ => by
    simp only [Own] at ho
    simp only [helpers] at hd
    simp only [depth] at hn
    have h := same_attach hR (same_run a n ρ ho.1 hd.left (max_le_left hn) hρ)
      (same_run b n ρ ho.2 hd.right (max_le_right hn) hρ)
    have e : run R fuel G (calls R fuel G n) (tree N (.attach a b)) ρ = (do
      let x ← (do
        let y ← run R fuel G (calls R fuel G n) (tree N a) ρ
        let t ← runTruthy R y
        if t = true then Pure.pure R.none else Pure.pure y)
      let t ← runTruthy R x
      if t = false then run R fuel G (calls R fuel G n) (tree N b) ρ else Pure.pure x) := by
      simp only [tree, run, runBool, lookup, if_true, bind_pure_eq]
    rw [e, eval]
    exact h
  | .sub e i, n, ρ, ho, hd, hn, hρ => by
    simp only [Own] at ho
    simp only [helpers] at hd
    simp only [depth] at hn
    simp only [eval, tree, run]
    exact (same_run e n ρ ho.1 hd.left (max_le_left hn) hρ).bind (fun x =>
      (same_run i n ρ ho.2 hd.right (max_le_right hn) hρ).bind (fun y => Same.op _ _))
  | .dot e a, n, ρ, ho, hd, hn, hρ => by
    simp only [Own] at ho
    simp only [helpers] at hd
    simp only [depth] at hn
    simp only [eval, tree, run]
    exact (same_run e n ρ ho hd hn hρ).bind (fun x => Same.op _ _)
  | .getattr e i, n, ρ, ho, hd, hn, hρ => by
    simp only [Own] at ho
    simp only [helpers] at hd
    simp only [depth] at hn
    simp only [eval, tree, run, callee_builtin hρ hM.getattr (by decide), runBuiltin]
    exact (same_run e n ρ ho.1 hd.left (max_le_left hn) hρ).bind (fun x =>
      (same_run i n ρ ho.2 hd.right (max_le_right hn) hρ).bind (fun y => Same.op _ _))
  | .call f args kw, n, ρ, ho, hd, hn, hρ => by
    simp only [Own] at ho
    simp only [helpers] at hd
    simp only [depth] at hn
    simp only [eval, tree, run, callee_tree hM f ho.1]
    exact (same_run f n ρ ho.1 hd.left (max_le_left hn) hρ).bind (fun x =>
      (same_all args n ρ ho.2 hd.right (max_le_right hn) hρ).bind (fun y => Same.op _ _))
  | .boolop isAnd es, n, ρ, ho, hd, hn, hρ => by
    simp only [Own] at ho
    simp only [helpers] at hd
    simp only [depth] at hn
    simp only [eval, tree, run]
    exact same_bool isAnd es n ρ ho hd hn hρ
  | .eqs [], n, ρ, ho, hd, hn, hρ => by simp [Own] at ho
  | .eqs (e :: es), n, ρ, ho, hd, hn, hρ => by
    simp only [Own, OwnAll] at ho
    simp only [helpers, helpersAll] at hd
    simp only [depth, depthAll] at hn
    simp only [eval, evalEqs, tree, treeAll, run]
    exact (same_run e n ρ ho.2.1 hd.left (max_le_left hn) hρ).bind (fun x =>
      same_eqs x es n ρ ho.2.2 hd.right (max_le_right hn) hρ)
  | .not e, n, ρ, ho, hd, hn, hρ => by
    simp only [Own] at ho
    simp only [helpers] at hd
    simp only [depth] at hn
    simp only [eval, tree, run]
    exact (same_run e n ρ ho hd hn hρ).bind (fun x => (Same.truthy _).bind (fun _ => Same.pure _))
  | .bin o a b, n, ρ, ho, hd, hn, hρ => by
    simp only [Own] at ho
    simp only [helpers] at hd
    simp only [depth] at hn
    have ha := same_run a n ρ ho.1 hd.left (max_le_left hn) hρ
    have hb := same_run b n ρ ho.2 hd.right (max_le_right hn) hρ
    cases o <;> (
      simp only [eval, tree, opTree, run, runCmp, cmpOp, arithOp, bind_pure_eq]
      exact ha.bind (fun x => hb.bind (fun y => Same.op _ _)))
  | .neg e, n, ρ, ho, hd, hn, hρ => by
    simp only [Own] at ho
    simp only [helpers] at hd
    simp only [depth] at hn
    simp only [eval, tree, run]
    exact (same_run e n ρ ho hd hn hρ).bind (fun x => Same.op _ _)
  | .ifexp t c f, n, ρ, ho, hd, hn, hρ => by
    simp only [Own] at ho
    simp only [helpers] at hd
    simp only [depth] at hn
    simp only [eval, tree, run]
    exact (same_run c n ρ ho.2.1 hd.right.left (max_le_left (max_le_right hn)) hρ).bind (fun x =>
      (Same.truthy _).bind (fun b => Same.ite (same_run t n ρ ho.1 hd.left (max_le_left hn) hρ)
        (same_run f n ρ ho.2.2 hd.right.right (max_le_right (max_le_right hn)) hρ)))
  | .comp k item value var iter hasCond cond sort, n, ρ, ho, hd, hn, hρ => by
    simp only [Own] at ho
    simp only [helpers] at hd
    simp only [depth] at hn
    exact same_compExpr hR hM _ hρ k item value ho.2.1 iter hasCond cond sort ho.1.1 ho.1.2
      (same_run iter n ρ ho.2.2.2.2.1 hd.right.right.left (max_le_left (max_le_right (max_le_right hn))) hρ)
      (fun ρ' h' => same_run item n ρ' ho.2.2.1 hd.left (max_le_left hn) h')
      (fun ρ' h' => same_run value n ρ' ho.2.2.2.1 hd.right.left (max_le_left (max_le_right hn)) h')
      (fun ρ' h' => same_run cond n ρ' ho.2.2.2.2.2 hd.right.right.right
        (max_le_right (max_le_right (max_le_right hn))) h')
  | .display k items, n, ρ, ho, hd, hn, hρ => by
    simp only [Own] at ho
    simp only [helpers] at hd
    simp only [depth] at hn
    have h := same_all items n ρ ho hd hn hρ
    cases k <;> (
      simp only [eval, tree, run]
      exact h.bind (fun x => Same.op _ _))
  | .getOrDefault fname body g self obj dflt, 0, ρ, ho, hd, hn, hρ => by
    simp only [depth] at hn
    exact absurd (max_le_left hn) (by simp)
  | .getOrDefault fname body g self obj dflt, n + 1, ρ, ho, hd, hn, hρ => by
    simp only [Own] at ho
    simp only [helpers] at hd
    simp only [depth] at hn
    have hself := same_run self (n + 1) ρ ho.2.1 hd.tail.right.left (max_le_left (max_le_right hn)) hρ
    have hobj := same_run obj (n + 1) ρ ho.2.2.1 hd.tail.right.right.left
      (max_le_left (max_le_right (max_le_right hn))) hρ
    have hdflt := same_run dflt (n + 1) ρ ho.2.2.2 hd.tail.right.right.right
      (max_le_right (max_le_right (max_le_right hn))) hρ
    have hbody : ∀ s o d, Same N
        (onError (eval R fuel body (defaultEnv g s o d)) (fun e => if R.caught e then Pure.pure d else fail e))
        ((calls R fuel G (n + 1)).call (helperDef N (.getOrDefault fname body g self obj dflt))
          ((if g then [s] else []) ++ [o, d])) := by
      intro s o d
      simp only [calls, helperDef, call_default hM]
      exact (same_run body n _ ho.1 hd.tail.left (Nat.le_of_succ_le_succ (max_le_left hn))
        (clear_default hM g s o d)).onError (fun e => Same.ite (Same.pure _) (Same.fail _))
    have hh : G fname = some (.def_ (helperDef N (.getOrDefault fname body g self obj dflt))) ∧
      isConstName fname = false := hd.head
    rw [tree, run_def hρ hh]
    cases g with
    | true =>
      simp only [eval, if_true, List.cons_append, List.nil_append, runAll, bind_bind, pure_bind_eq]
      exact hself.bind (fun s => hobj.bind (fun o => hdflt.bind (fun d => hbody s o d)))
    | false =>
      simp only [eval, Bool.false_eq_true, if_false, List.nil_append, runAll, bind_bind, pure_bind_eq]
      exact hobj.bind (fun o => hdflt.bind (fun d => hbody R.none o d))
  | .optItems k fname flags body obj args, 0, ρ, ho, hd, hn, hρ => by
    simp only [depth] at hn
    exact absurd (max_le_left hn) (by simp)
  | .optItems k fname flags body obj args, n + 1, ρ, ho, hd, hn, hρ => by
    simp only [Own] at ho
    simp only [helpers] at hd
    simp only [depth] at hn
    have hh : G fname = some (.def_ (helperDef N (.optItems k fname flags body obj args))) ∧
      isConstName fname = false := hd.head
    have hy : yieldsAny (itemStmts flags (treeAll N body)) = true := yields_items ho.2.2.2.2
    rw [tree, run_feed hρ (hM.kind k) hy hh]
    simp only [eval, runAll, bind_bind, pure_bind_eq]
    refine (same_run obj (n + 1) ρ ho.2.1 hd.tail.right (max_le_right hn) hρ).bind (fun o => ?_)
    refine same_helperEnv _ hM o args ho.2.2.1 (fun ρ' vs hcl hl he => ?_)
    subst he
    simp only [calls, feedDef, helperDef, List.length_cons, hl, hy, true_and, if_true]
    exact (same_opt k ho.2.2.2.1 flags body n _ ho.1 hd.tail.left (Nat.le_of_succ_le_succ (max_le_left hn)) hcl).inGen.bind
      (fun _ => Same.op _ _)
  | .optDict fname flags body obj args, 0, ρ, ho, hd, hn, hρ => by
    simp only [depth] at hn
    exact absurd (max_le_left hn) (by simp)
  | .optDict fname flags body obj args, n + 1, ρ, ho, hd, hn, hρ => by
    simp only [Own] at ho
    simp only [helpers] at hd
    simp only [depth] at hn
    have hh : G fname = some (.def_ (helperDef N (.optDict fname flags body obj args))) ∧
      isConstName fname = false := hd.head
    have hy : yieldsAny (pairStmts flags (treeAll N body)) = true := yields_pairs ho.2.2.2
    rw [tree, show "dict" = kindName .dict from rfl, run_feed hρ (hM.kind .dict) hy hh]
    simp only [eval, runAll, bind_bind, pure_bind_eq]
    refine (same_run obj (n + 1) ρ ho.2.1 hd.tail.right (max_le_right hn) hρ).bind (fun o => ?_)
    refine same_helperEnv _ hM o args ho.2.2.1 (fun ρ' vs hcl hl he => ?_)
    subst he
    simp only [calls, feedDef, helperDef, List.length_cons, hl, hy, true_and, if_true]
    exact (same_pairs flags body n _ ho.1 hd.tail.left (Nat.le_of_succ_le_succ (max_le_left hn)) hcl).inGen.bind
      (fun _ => Same.op _ _)
  | .tap fname obj stmts args, 0, ρ, ho, hd, hn, hρ => by
    simp only [depth] at hn
    exact absurd (max_le_left hn) (by simp)
  | .tap fname obj stmts args, n + 1, ρ, ho, hd, hn, hρ => by
    simp only [Own] at ho
    simp only [helpers] at hd
    simp only [depth] at hn
    have hh : G fname = some (.def_ (helperDef N (.tap fname obj stmts args))) ∧ isConstName fname = false := hd.head
    rw [tree, run_def hρ hh]
    simp only [eval, runAll, bind_bind, pure_bind_eq]
    refine (same_run obj (n + 1) ρ ho.2.1 hd.tail.right (max_le_right hn) hρ).bind (fun o => ?_)
    refine same_helperEnv _ hM o args ho.2.2.1 (fun ρ' vs hcl hl he => ?_)
    subst he
    simp only [calls, callDef, helperDef, List.length_cons, hl, yields_tap, true_and, if_true]
    refine same_stmts stmts n _ ho.1 hd.tail.left (Nat.le_of_succ_le_succ (max_le_left hn)) hcl _ _ ?_
    simp only [execAll, exec, run, lookup_data hM, pure_bind_eq, result]
  | .setattr o k v, n, ρ, ho, hd, hn, hρ => by
    simp only [Own] at ho
    simp only [helpers] at hd
    simp only [depth] at hn
    simp only [eval, tree, run, callee_builtin hρ hM.setattr (by decide), runBuiltin, List.isEmpty_nil, if_true]
    exact (same_run o n ρ ho.1 hd.left (max_le_left hn) hρ).bind (fun x =>
      (same_run k n ρ ho.2.1 hd.right.left (max_le_left (max_le_right hn)) hρ).bind (fun y =>
      (same_run v n ρ ho.2.2 hd.right.right (max_le_right (max_le_right hn)) hρ).bind (fun z => Same.op _ _)))
  | .pop o k, n, ρ, ho, hd, hn, hρ => by
    simp only [Own] at ho
    simp only [helpers] at hd
    simp only [depth] at hn
    simp only [eval, tree, run, callee, runAll, bind_bind, pure_bind_eq]
    exact (same_run o n ρ ho.1 hd.left (max_le_left hn) hρ).bind (fun x => (Same.op _ _).bind (fun f =>
      (same_run k n ρ ho.2 hd.right (max_le_right hn) hρ).bind (fun y => Same.op _ _)))
  | .delattr o k, n, ρ, ho, hd, hn, hρ => by
    simp only [Own] at ho
    simp only [helpers] at hd
    simp only [depth] at hn
    simp only [eval, tree, run, callee_builtin hρ hM.delattr (by decide), runBuiltin]
    exact (same_run o n ρ ho.1 hd.left (max_le_left hn) hρ).bind (fun x =>
      (same_run k n ρ ho.2 hd.right (max_le_right hn) hρ).bind (fun y => Same.op _ _))
  | .setitem _ _ _, n, ρ, ho, hd, hn, hρ => by simp [Own] at ho
  | .bad _, n, ρ, ho, hd, hn, hρ => by simp [Own] at ho
  | .given _ _, n, ρ, ho, hd, hn, hρ => by simp [Own] at ho

/-- The same for several expressions. -/
theorem same_all : ∀ (es : List (PyExpr Val)) (n : Nat) (ρ : Env Val), OwnAll N G es → Defined N G (helpersAll es) →
    depthAll es ≤ n → Clear G ρ →
    Same N (evalAll R fuel es ρ) (runAll R fuel G (calls R fuel G n) (treeAll N es) ρ)
  | [], n, ρ, ho, hd, hn, hρ => by
    simp only [evalAll, treeAll, runAll]
    exact Same.pure _
  | e :: es, n, ρ, ho, hd, hn, hρ => by
    simp only [OwnAll] at ho
    simp only [helpersAll] at hd
    simp only [depthAll] at hn
    simp only [evalAll, treeAll, runAll]
    exact (same_run e n ρ ho.1 hd.left (max_le_left hn) hρ).bind (fun x =>
      (same_all es n ρ ho.2 hd.right (max_le_right hn) hρ).bind (fun y => Same.pure _))

/-- `and`, `or`. -/
theorem same_bool (isAnd : Bool) : ∀ (es : List (PyExpr Val)) (n : Nat) (ρ : Env Val), OwnAll N G es →
    Defined N G (helpersAll es) → depthAll es ≤ n → Clear G ρ →
    Same N (evalBool R fuel isAnd es ρ) (runBool R fuel G (calls R fuel G n) isAnd (treeAll N es) ρ)
  | [], n, ρ, ho, hd, hn, hρ => by
    simp only [evalBool, treeAll, runBool]
    exact Same.fail _
  | [e], n, ρ, ho, hd, hn, hρ => by
    simp only [OwnAll] at ho
    simp only [helpersAll] at hd
    simp only [depthAll] at hn
    simp only [evalBool, treeAll, runBool]
    exact (same_run e n ρ ho.1 hd.left (max_le_left hn) hρ).bind (fun x => Same.pure _)
  | e :: e' :: es, n, ρ, ho, hd, hn, hρ => by
    rw [OwnAll] at ho
    rw [helpersAll] at hd
    rw [depthAll] at hn
    have ih := same_bool isAnd (e' :: es) n ρ ho.2 hd.right (max_le_right hn) hρ
    rw [evalBool, treeAll, runBool]
    rw [treeAll] at ih ⊢
    exact (same_run e n ρ ho.1 hd.left (max_le_left hn) hρ).bind (fun x =>
      (Same.truthy _).bind (fun b => Same.ite ih (Same.pure _)))

/-- `a == b == …`. -/
theorem same_eqs (x : Val) : ∀ (es : List (PyExpr Val)) (n : Nat) (ρ : Env Val), OwnAll N G es →
    Defined N G (helpersAll es) → depthAll es ≤ n → Clear G ρ →
    Same N (evalEqs' R fuel x es ρ)
      (runCmp R fuel G (calls R fuel G n) x ((treeAll N es).map (fun _ => .eq)) (treeAll N es) ρ)
  | [], n, ρ, ho, hd, hn, hρ => by
    simp only [evalEqs', treeAll, List.map_nil, runCmp]
    exact Same.pure _
  | [e], n, ρ, ho, hd, hn, hρ => by
    simp only [OwnAll] at ho
    simp only [helpersAll] at hd
    simp only [depthAll] at hn
    simp only [evalEqs', treeAll, List.map_cons, runCmp, cmpOp]
    exact (same_run e n ρ ho.1 hd.left (max_le_left hn) hρ).bind (fun y => (Same.op _ _).bind (fun r => Same.pure _))
  | e :: e' :: es, n, ρ, ho, hd, hn, hρ => by
    rw [OwnAll] at ho
    rw [helpersAll] at hd
    rw [depthAll] at hn
    have ih := fun y => same_eqs y (e' :: es) n ρ ho.2 hd.right (max_le_right hn) hρ
    rw [evalEqs', treeAll, List.map_cons, runCmp]
    simp only [treeAll, List.map_cons] at ih ⊢
    exact (same_run e n ρ ho.1 hd.left (max_le_left hn) hρ).bind (fun y => (Same.op _ _).bind (fun r =>
      (Same.truthy _).bind (fun b => Same.ite (ih y) (Same.pure _))))

/-- The lines of `optional_items_generator`. -/
theorem same_opt (k : Kind) (hk : k ≠ .dict) : ∀ (flags : List Bool) (es : List (PyExpr Val)) (n : Nat) (ρ : Env Val),
    OwnAll N G es → Defined N G (helpersAll es) → depthAll es ≤ n → Clear G ρ →
    Same N (evalOpt R fuel k flags es ρ)
      (gensAll R fuel G (calls R fuel G n) k (itemStmts flags (treeAll N es)) ρ)
  | [], es, n, ρ, ho, hd, hn, hρ => by
    simp only [evalOpt, itemStmts, gensAll]
    exact Same.pure _
  | flag :: flags, [], n, ρ, ho, hd, hn, hρ => by
    simp only [evalOpt, treeAll, itemStmts, gensAll]
    exact Same.pure _
  | flag :: flags, [c], n, ρ, ho, hd, hn, hρ => by
    simp only [evalOpt, treeAll, itemStmts, gensAll]
    exact Same.pure _
  | flag :: flags, c :: e :: es, n, ρ, ho, hd, hn, hρ => by
    simp only [OwnAll] at ho
    simp only [helpersAll] at hd
    simp only [depthAll] at hn
    have h1 := same_run c n ρ ho.1 hd.left (max_le_left hn) hρ
    have h2 := same_run e n ρ ho.2.1 hd.right.left (max_le_left (max_le_right hn)) hρ
    have h3 := same_opt k hk flags es n ρ ho.2.2 hd.right.right (max_le_right (max_le_right hn)) hρ
    have h4 : Same N (addItem R k none (eval R fuel e ρ) (Pure.pure R.none))
        (runYield R fuel G (calls R fuel G n) k (tree N e) ρ) := by
      cases k with
      | dict => exact absurd rfl hk
      | set =>
        simp only [addItem, runYield]
        exact h2.bind (fun a => (Same.op _ _).bind (fun _ => Same.pure _))
      | list =>
        simp only [addItem, runYield]
        exact h2.bind (fun a => Same.pure _)
      | tuple =>
        simp only [addItem, runYield]
        exact h2.bind (fun a => Same.pure _)
    simp only [evalOpt, treeAll, itemStmts, gensAll]
    cases flag with
    | true =>
      simp only [itemStmt, if_true, gens, gensAll, bind_bind, pure_bind_eq, List.append_nil, bind_pure_eq]
      refine h1.bind (fun x => (Same.truthy _).bind (fun b => ?_))
      cases b with
      | true =>
        simp only [if_true, bind_bind, pure_bind_eq]
        exact h4.bind (fun xs => h3.bind (fun ys => Same.pure _))
      | false => exact (Same.pure _).bind (fun xs => h3.bind (fun ys => Same.pure _))
    | false =>
      simp only [itemStmt, Bool.false_eq_true, if_false, gens, pure_bind_eq, if_true]
      exact h4.bind (fun xs => h3.bind (fun ys => Same.pure _))

/-- The same for pairs. -/
theorem same_pairs : ∀ (flags : List Bool) (es : List (PyExpr Val)) (n : Nat) (ρ : Env Val),
    OwnAll N G es → Defined N G (helpersAll es) → depthAll es ≤ n → Clear G ρ →
    Same N (evalOptDict R fuel flags es ρ)
      (gensAll R fuel G (calls R fuel G n) .dict (pairStmts flags (treeAll N es)) ρ)
  | [], es, n, ρ, ho, hd, hn, hρ => by
    simp only [evalOptDict, pairStmts, gensAll]
    exact Same.pure _
  | flag :: flags, [], n, ρ, ho, hd, hn, hρ => by
    simp only [evalOptDict, treeAll, pairStmts, gensAll]
    exact Same.pure _
  | flag :: flags, [c], n, ρ, ho, hd, hn, hρ => by
    simp only [evalOptDict, treeAll, pairStmts, gensAll]
    exact Same.pure _
  | flag :: flags, [c, k], n, ρ, ho, hd, hn, hρ => by
    simp only [evalOptDict, treeAll, pairStmts, gensAll]
    exact Same.pure _
  | flag :: flags, c :: k :: e :: es, n, ρ, ho, hd, hn, hρ => by
    simp only [OwnAll] at ho
    simp only [helpersAll] at hd
    simp only [depthAll] at hn
    have h1 := same_run c n ρ ho.1 hd.left (max_le_left hn) hρ
    have h2 := same_run k n ρ ho.2.1 hd.right.left (max_le_left (max_le_right hn)) hρ
    have h2' := same_run e n ρ ho.2.2.1 hd.right.right.left (max_le_left (max_le_right (max_le_right hn))) hρ
    have h3 := same_pairs flags es n ρ ho.2.2.2 hd.right.right.right (max_le_right (max_le_right (max_le_right hn))) hρ
    have h4 : Same N (addItem R .dict none (eval R fuel k ρ) (eval R fuel e ρ))
        (runYield R fuel G (calls R fuel G n) .dict (.display .tuple [tree N k, tree N e]) ρ) := by
      simp only [addItem, runYield, runAll, bind_bind, pure_bind_eq]
      exact h2.bind (fun a => h2'.bind (fun b => (Same.op _ _).bind (fun _ => Same.pure _)))
    simp only [evalOptDict, treeAll, pairStmts, gensAll]
    cases flag with
    | true =>
      simp only [itemStmt, if_true, gens, gensAll, bind_bind, pure_bind_eq, List.append_nil, bind_pure_eq]
      refine h1.bind (fun x => (Same.truthy _).bind (fun b => ?_))
      cases b with
      | true =>
        simp only [if_true, bind_bind, pure_bind_eq]
        exact h4.bind (fun xs => h3.bind (fun ys => Same.pure _))
      | false => exact (Same.pure _).bind (fun xs => h3.bind (fun ys => Same.pure _))
    | false =>
      simp only [itemStmt, Bool.false_eq_true, if_false, gens, pure_bind_eq, if_true]
      exact h4.bind (fun xs => h3.bind (fun ys => Same.pure _))

/-- The statements of `tap`, and its result. -/
theorem same_stmts : ∀ (es : List (PyExpr Val)) (n : Nat) (ρ : Env Val), OwnStmts N G es →
    Defined N G (helpersAll es) → depthAll es ≤ n → Clear G ρ → ∀ (o : Val) (last : List Stmt.Stmt),
    (execAll R fuel G (calls R fuel G n) last ρ >>= result R) = Pure.pure o →
    Same N (evalAll R fuel es ρ >>= fun _ => Pure.pure o)
      (execAll R fuel G (calls R fuel G n) (es.map (stmtTree N) ++ last) ρ >>= result R)
  | [], n, ρ, ho, hd, hn, hρ, o, last, hl => by
    simp only [evalAll, List.map_nil, List.nil_append, pure_bind_eq, hl]
    exact Same.pure _
  | .setitem a b c :: es, n, ρ, ho, hd, hn, hρ, o, last, hl => by
    simp only [OwnStmts] at ho
    simp only [helpersAll, helpers] at hd
    simp only [depthAll, depth] at hn
    simp only [evalAll, eval, List.map_cons, List.cons_append, stmtTree, execAll, exec, bind_bind, pure_bind_eq]
    exact (same_run c n ρ ho.1.2.2 hd.left.right.right (max_le_right (max_le_right (max_le_left hn))) hρ).bind (fun z =>
      (same_run a n ρ ho.1.1 hd.left.left (max_le_left (max_le_left hn)) hρ).bind (fun x =>
      (same_run b n ρ ho.1.2.1 hd.left.right.left (max_le_left (max_le_right (max_le_left hn))) hρ).bind (fun y =>
      (Same.op _ _).bind (fun _ => same_stmts es n ρ ho.2 hd.right (max_le_right hn) hρ o last hl))))
  | .name x :: es, n, ρ, ho, hd, hn, hρ, o, last, hl => by
    rw [OwnStmts] at ho
    · exact stmts_step (by intro _ _ _ h; cases h) (same_run (.name x) n ρ ho.1 hd.left (max_le_left hn) hρ)
        (same_stmts es n ρ ho.2 hd.right (max_le_right hn) hρ o last hl)
    · exact fun _ _ _ h => nomatch h
  | .const l :: es, n, ρ, ho, hd, hn, hρ, o, last, hl => by
    rw [OwnStmts] at ho
    · exact stmts_step (by intro _ _ _ h; cases h) (same_run (.const l) n ρ ho.1 hd.left (max_le_left hn) hρ)
        (same_stmts es n ρ ho.2 hd.right (max_le_right hn) hρ o last hl)
    · exact fun _ _ _ h => nomatch h
  | .getLabel l :: es, n, ρ, ho, hd, hn, hρ, o, last, hl => by
    rw [OwnStmts] at ho
    · exact stmts_step (by intro _ _ _ h; cases h) (same_run (.getLabel l) n ρ ho.1 hd.left (max_le_left hn) hρ)
        (same_stmts es n ρ ho.2 hd.right (max_le_right hn) hρ o last hl)
    · exact fun _ _ _ h => nomatch h
  | .addLabel l e :: es, n, ρ, ho, hd, hn, hρ, o, last, hl => by
    rw [OwnStmts] at ho
    · exact stmts_step (by intro _ _ _ h; cases h) (same_run (.addLabel l e) n ρ ho.1 hd.left (max_le_left hn) hρ)
        (same_stmts es n ρ ho.2 hd.right (max_le_right hn) hρ o last hl)
    · exact fun _ _ _ h => nomatch h
  | .attach a b :: es, n, ρ, ho, hd, hn, hρ, o, last, hl => by
    rw [OwnStmts] at ho
    · exact stmts_step (by intro _ _ _ h; cases h) (same_run (.attach a b) n ρ ho.1 hd.left (max_le_left hn) hρ)
        (same_stmts es n ρ ho.2 hd.right (max_le_right hn) hρ o last hl)
    · exact fun _ _ _ h => nomatch h
  | .sub a b :: es, n, ρ, ho, hd, hn, hρ, o, last, hl => by
    rw [OwnStmts] at ho
    · exact stmts_step (by intro _ _ _ h; cases h) (same_run (.sub a b) n ρ ho.1 hd.left (max_le_left hn) hρ)
        (same_stmts es n ρ ho.2 hd.right (max_le_right hn) hρ o last hl)
    · exact fun _ _ _ h => nomatch h
  | .dot a b :: es, n, ρ, ho, hd, hn, hρ, o, last, hl => by
    rw [OwnStmts] at ho
    · exact stmts_step (by intro _ _ _ h; cases h) (same_run (.dot a b) n ρ ho.1 hd.left (max_le_left hn) hρ)
        (same_stmts es n ρ ho.2 hd.right (max_le_right hn) hρ o last hl)
    · exact fun _ _ _ h => nomatch h
  | .getattr a b :: es, n, ρ, ho, hd, hn, hρ, o, last, hl => by
    rw [OwnStmts] at ho
    · exact stmts_step (by intro _ _ _ h; cases h) (same_run (.getattr a b) n ρ ho.1 hd.left (max_le_left hn) hρ)
        (same_stmts es n ρ ho.2 hd.right (max_le_right hn) hρ o last hl)
    · exact fun _ _ _ h => nomatch h
  | .call a b c :: es, n, ρ, ho, hd, hn, hρ, o, last, hl => by
    rw [OwnStmts] at ho
    · exact stmts_step (by intro _ _ _ h; cases h) (same_run (.call a b c) n ρ ho.1 hd.left (max_le_left hn) hρ)
        (same_stmts es n ρ ho.2 hd.right (max_le_right hn) hρ o last hl)
    · exact fun _ _ _ h => nomatch h
  | .boolop a b :: es, n, ρ, ho, hd, hn, hρ, o, last, hl => by
    rw [OwnStmts] at ho
    · exact stmts_step (by intro _ _ _ h; cases h) (same_run (.boolop a b) n ρ ho.1 hd.left (max_le_left hn) hρ)
        (same_stmts es n ρ ho.2 hd.right (max_le_right hn) hρ o last hl)
    · exact fun _ _ _ h => nomatch h
  | .eqs a :: es, n, ρ, ho, hd, hn, hρ, o, last, hl => by
    rw [OwnStmts] at ho
    · exact stmts_step (by intro _ _ _ h; cases h) (same_run (.eqs a) n ρ ho.1 hd.left (max_le_left hn) hρ)
        (same_stmts es n ρ ho.2 hd.right (max_le_right hn) hρ o last hl)
    · exact fun _ _ _ h => nomatch h
  | .not a :: es, n, ρ, ho, hd, hn, hρ, o, last, hl => by
    rw [OwnStmts] at ho
    · exact stmts_step (by intro _ _ _ h; cases h) (same_run (.not a) n ρ ho.1 hd.left (max_le_left hn) hρ)
        (same_stmts es n ρ ho.2 hd.right (max_le_right hn) hρ o last hl)
    · exact fun _ _ _ h => nomatch h
  | .bin a b c :: es, n, ρ, ho, hd, hn, hρ, o, last, hl => by
    rw [OwnStmts] at ho
    · exact stmts_step (by intro _ _ _ h; cases h) (same_run (.bin a b c) n ρ ho.1 hd.left (max_le_left hn) hρ)
        (same_stmts es n ρ ho.2 hd.right (max_le_right hn) hρ o last hl)
    · exact fun _ _ _ h => nomatch h
  | .neg a :: es, n, ρ, ho, hd, hn, hρ, o, last, hl => by
    rw [OwnStmts] at ho
    · exact stmts_step (by intro _ _ _ h; cases h) (same_run (.neg a) n ρ ho.1 hd.left (max_le_left hn) hρ)
        (same_stmts es n ρ ho.2 hd.right (max_le_right hn) hρ o last hl)
    · exact fun _ _ _ h => nomatch h
  | .ifexp a b c :: es, n, ρ, ho, hd, hn, hρ, o, last, hl => by
    rw [OwnStmts] at ho
    · exact stmts_step (by intro _ _ _ h; cases h) (same_run (.ifexp a b c) n ρ ho.1 hd.left (max_le_left hn) hρ)
        (same_stmts es n ρ ho.2 hd.right (max_le_right hn) hρ o last hl)
    · exact fun _ _ _ h => nomatch h
  | .comp a b c d e f g h :: es, n, ρ, ho, hd, hn, hρ, o, last, hl => by
    rw [OwnStmts] at ho
    · exact stmts_step (by intro _ _ _ h; cases h) (same_run (.comp a b c d e f g h) n ρ ho.1 hd.left (max_le_left hn) hρ)
        (same_stmts es n ρ ho.2 hd.right (max_le_right hn) hρ o last hl)
    · exact fun _ _ _ h => nomatch h
  | .display a b :: es, n, ρ, ho, hd, hn, hρ, o, last, hl => by
    rw [OwnStmts] at ho
    · exact stmts_step (by intro _ _ _ h; cases h) (same_run (.display a b) n ρ ho.1 hd.left (max_le_left hn) hρ)
        (same_stmts es n ρ ho.2 hd.right (max_le_right hn) hρ o last hl)
    · exact fun _ _ _ h => nomatch h
  | .getOrDefault a b c d e f :: es, n, ρ, ho, hd, hn, hρ, o, last, hl => by
    rw [OwnStmts] at ho
    · exact stmts_step (by intro _ _ _ h; cases h) (same_run (.getOrDefault a b c d e f) n ρ ho.1 hd.left (max_le_left hn) hρ)
        (same_stmts es n ρ ho.2 hd.right (max_le_right hn) hρ o last hl)
    · exact fun _ _ _ h => nomatch h
  | .optItems a b c d e f :: es, n, ρ, ho, hd, hn, hρ, o, last, hl => by
    rw [OwnStmts] at ho
    · exact stmts_step (by intro _ _ _ h; cases h) (same_run (.optItems a b c d e f) n ρ ho.1 hd.left (max_le_left hn) hρ)
        (same_stmts es n ρ ho.2 hd.right (max_le_right hn) hρ o last hl)
    · exact fun _ _ _ h => nomatch h
  | .optDict a b c d e :: es, n, ρ, ho, hd, hn, hρ, o, last, hl => by
    rw [OwnStmts] at ho
    · exact stmts_step (by intro _ _ _ h; cases h) (same_run (.optDict a b c d e) n ρ ho.1 hd.left (max_le_left hn) hρ)
        (same_stmts es n ρ ho.2 hd.right (max_le_right hn) hρ o last hl)
    · exact fun _ _ _ h => nomatch h
  | .tap a b c d :: es, n, ρ, ho, hd, hn, hρ, o, last, hl => by
    rw [OwnStmts] at ho
    · exact stmts_step (by intro _ _ _ h; cases h) (same_run (.tap a b c d) n ρ ho.1 hd.left (max_le_left hn) hρ)
        (same_stmts es n ρ ho.2 hd.right (max_le_right hn) hρ o last hl)
    · exact fun _ _ _ h => nomatch h
  | .setattr a b c :: es, n, ρ, ho, hd, hn, hρ, o, last, hl => by
    rw [OwnStmts] at ho
    · exact stmts_step (by intro _ _ _ h; cases h) (same_run (.setattr a b c) n ρ ho.1 hd.left (max_le_left hn) hρ)
        (same_stmts es n ρ ho.2 hd.right (max_le_right hn) hρ o last hl)
    · exact fun _ _ _ h => nomatch h
  | .pop a b :: es, n, ρ, ho, hd, hn, hρ, o, last, hl => by
    rw [OwnStmts] at ho
    · exact stmts_step (by intro _ _ _ h; cases h) (same_run (.pop a b) n ρ ho.1 hd.left (max_le_left hn) hρ)
        (same_stmts es n ρ ho.2 hd.right (max_le_right hn) hρ o last hl)
    · exact fun _ _ _ h => nomatch h
  | .delattr a b :: es, n, ρ, ho, hd, hn, hρ, o, last, hl => by
    rw [OwnStmts] at ho
    · exact stmts_step (by intro _ _ _ h; cases h) (same_run (.delattr a b) n ρ ho.1 hd.left (max_le_left hn) hρ)
        (same_stmts es n ρ ho.2 hd.right (max_le_right hn) hρ o last hl)
    · exact fun _ _ _ h => nomatch h
  | .bad a :: es, n, ρ, ho, hd, hn, hρ, o, last, hl => by
    rw [OwnStmts] at ho
    · exact stmts_step (by intro _ _ _ h; cases h) (same_run (.bad a) n ρ ho.1 hd.left (max_le_left hn) hρ)
        (same_stmts es n ρ ho.2 hd.right (max_le_right hn) hρ o last hl)
    · exact fun _ _ _ h => nomatch h
  | .given a b :: es, n, ρ, ho, hd, hn, hρ, o, last, hl => by
    rw [OwnStmts] at ho
    · exact stmts_step (by intro _ _ _ h; cases h) (same_run (.given a b) n ρ ho.1 hd.left (max_le_left hn) hρ)
        (same_stmts es n ρ ho.2 hd.right (max_le_right hn) hρ o last hl)
    · exact fun _ _ _ h => nomatch h

end

end

end

end Verif.Exec
