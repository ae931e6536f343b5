import Verif.GroupKeys.Wf

/-!
# Group keys: the meaning of what is left
-/

set_option autoImplicit false

namespace Verif.GroupKeys

open Verif.Expr Verif.Text

section
variable {Val U Err : Type} {N : Names Val} {key sig : PyExpr Val} {R : Runtime Val U Err} {fuel : Nat}

/-- Both the row and the group's key are known. -/
def Both (r sg : Val) (ρ : Env Val) : Prop := ρ varRow = some r ∧ ρ varSignature = some sg

theorem Both.set {r sg : Val} {ρ : Env Val} (h : Both r sg ρ) {x : String} (hx : clean x = true)
    (hs : (x != varSignature) = true) (y : Val) : Both r sg (ρ.set x y) := by
  have h1 : varRow ≠ x := by
    rintro rfl
    exact absurd hx (by decide)
  have h2 : varSignature ≠ x := by
    intro h
    rw [← h] at hs
    exact absurd hs (by decide)
  refine ⟨?_, ?_⟩
  · simp only [Env.set, h1, if_false]; exact h.1
  · simp only [Env.set, h2, if_false]; exact h.2

/-- Every code with the text of the key has the value of what is put there. -/
def KeyOk (R : Runtime Val U Err) (fuel : Nat) (N : Names Val) (key sig : PyExpr Val) (r sg : Val) : Prop :=
  ∀ e, wf N e = true → isKey N key e = true → ∀ ρ, Both r sg ρ → eval R fuel sig ρ = eval R fuel e ρ

theorem evalBool_more (isAnd : Bool) (e e' : PyExpr Val) (es : List (PyExpr Val)) (ρ : Env Val) :
    evalBool R fuel isAnd (e :: e' :: es) ρ = (do
      let x ← eval R fuel e ρ
      let b ← runTruthy R x
      if b = isAnd then evalBool R fuel isAnd (e' :: es) ρ else pure x) := by
  conv => lhs; rw [evalBool]

theorem evalEqs'_more (x : Val) (e e' : PyExpr Val) (es : List (PyExpr Val)) (ρ : Env Val) :
    evalEqs' R fuel x (e :: e' :: es) ρ = (do
      let y ← eval R fuel e ρ
      let r ← runOp R .eq [x, y]
      let b ← runTruthy R r
      if b then evalEqs' R fuel y (e' :: es) ρ else pure r) := by
  conv => lhs; rw [evalEqs']

variable {r sg : Val}

set_option maxHeartbeats 1600000 in
mutual

/-- Replacing the key does not change the value. -/
theorem eval_put (hk : KeyOk R fuel N key sig r sg) : ∀ (e : PyExpr Val), wf N e = true → quiet N e = true →
    ∀ ρ, Both r sg ρ → eval R fuel (put N key sig e) ρ = eval R fuel e ρ
  | .name n, w, _, ρ, hρ => by
    simp only [put]
    split
    · rename_i h
      exact hk _ w h ρ hρ
    · rfl
  | .sub e i, w, q, ρ, hρ => by
    simp only [put]
    split
    · rename_i h
      exact hk _ w h ρ hρ
    · simp only [wf, quiet, Bool.and_eq_true] at w q
      simp only [eval, eval_put hk e w.1.2 q.1 ρ hρ, eval_put hk i w.2 q.2 ρ hρ]
  | .const _, _, _, _, _ => rfl
  | .getLabel _, _, _, _, _ => rfl
  | .addLabel l e, w, q, ρ, hρ => by
    simp only [wf, quiet, Bool.and_eq_true] at w q
    simp only [put, eval, eval_put hk e w.2 q.2 ρ hρ]
  | .attach a b, w, q, ρ, hρ => by
    simp only [wf, quiet, Bool.and_eq_true] at w q
    simp only [put, eval, eval_put hk a w.1 q.1 ρ hρ, eval_put hk b w.2 q.2 ρ hρ]
  | .dot e a, w, q, ρ, hρ => by
    simp only [wf, quiet, Bool.and_eq_true] at w q
    simp only [put, eval, eval_put hk e w.2 q.2 ρ hρ]
  | .getattr a b, w, q, ρ, hρ => by
    simp only [wf, quiet, Bool.and_eq_true] at w q
    simp only [put, eval, eval_put hk a w.1 q.1 ρ hρ, eval_put hk b w.2 q.2 ρ hρ]
  | .call f args kw, w, q, ρ, hρ => by
    simp only [wf, quiet, Bool.and_eq_true] at w q
    simp only [put, eval, eval_put hk f w.1.2 q.1.2 ρ hρ, evalAll_put hk args w.2 q.2 ρ hρ]
  | .boolop isAnd es, w, q, ρ, hρ => by
    simp only [wf, quiet, Bool.and_eq_true] at w q
    simp only [put, eval, evalBool_put hk isAnd es w.2 q ρ hρ]
  | .eqs es, w, q, ρ, hρ => by
    simp only [wf, quiet, Bool.and_eq_true] at w q
    simp only [put, eval]
    cases es with
    | nil => rfl
    | cons e es =>
      have w := w.2
      simp only [wfAll, quietAll, Bool.and_eq_true] at w q
      simp only [putAll, evalEqs, eval_put hk e w.1 q.1 ρ hρ]
      congr 1
      funext x
      exact evalEqs'_put hk x es w.2 q.2 ρ hρ
  | .not e, w, q, ρ, hρ => by
    simp only [wf, quiet] at w q
    simp only [put, eval, eval_put hk e w q ρ hρ]
  | .bin o a b, w, q, ρ, hρ => by
    cases o
    case index =>
      simp only [wf, quiet, Bool.and_eq_true] at w q
      simp only [put, eval, eval_put hk a w.1.2 q.1.2 ρ hρ, eval_put hk b w.2 q.2 ρ hρ]
    all_goals
      simp only [wf, quiet, Bool.and_eq_true] at w q
      simp only [put, eval, eval_put hk a w.1 q.1 ρ hρ, eval_put hk b w.2 q.2 ρ hρ]
  | .neg e, w, q, ρ, hρ => by
    simp only [wf, quiet] at w q
    simp only [put, eval, eval_put hk e w q ρ hρ]
  | .ifexp t c f, w, q, ρ, hρ => by
    simp only [wf, quiet, Bool.and_eq_true] at w q
    simp only [put, eval, eval_put hk t w.1.1 q.1.1 ρ hρ, eval_put hk c w.1.2 q.1.2 ρ hρ,
      eval_put hk f w.2 q.2 ρ hρ]
  | .comp k item value var iter hasCond cond sort, w, q, ρ, hρ => by
    simp only [wf, quiet, Bool.and_eq_true] at w q
    obtain ⟨⟨⟨⟨_, w1⟩, w2⟩, w3⟩, w4⟩ := w
    obtain ⟨⟨⟨⟨⟨⟨q0, q0'⟩, q1⟩, q2⟩, q3⟩, q4⟩, _⟩ := q
    have e1 := fun x => eval_put hk item w1 q1 (ρ.set var x) (hρ.set q0 q0' x)
    have e2 := fun x => eval_put hk value w2 q2 (ρ.set var x) (hρ.set q0 q0' x)
    have e4 := fun x => eval_put hk cond w4 q4 (ρ.set var x) (hρ.set q0 q0' x)
    simp only [put, eval, e1, e2, e4, eval_put hk iter w3 q3 ρ hρ]
  | .display k items, w, q, ρ, hρ => by
    simp only [wf, quiet, Bool.and_eq_true] at w q
    simp only [put, eval, evalAll_put hk items w.2 q ρ hρ]
  | .getOrDefault _ _ selfGiven self obj dflt, w, q, ρ, hρ => by
    simp only [wf, quiet, Bool.and_eq_true] at w q
    obtain ⟨⟨⟨_, w2⟩, w3⟩, w4⟩ := w
    obtain ⟨⟨⟨q1, q2⟩, q3⟩, q4⟩ := q
    simp only [put, eval, eval_put hk self w2 q2 ρ hρ, eval_put hk obj w3 q3 ρ hρ, eval_put hk dflt w4 q4 ρ hρ]
  | .optItems _ _ _ _ obj _, w, q, ρ, hρ => by
    simp only [wf, quiet, Bool.and_eq_true] at w q
    simp only [put, eval, eval_put hk obj w.1.2 q.1.2 ρ hρ]
  | .optDict _ _ _ obj _, w, q, ρ, hρ => by
    simp only [wf, quiet, Bool.and_eq_true] at w q
    simp only [put, eval, eval_put hk obj w.1.2 q.1.2 ρ hρ]
  | .tap _ obj _ _, w, q, ρ, hρ => by
    simp only [wf, quiet, Bool.and_eq_true] at w q
    simp only [put, eval, eval_put hk obj w.1.2 q.1.2 ρ hρ]
  | .setattr o k v, w, q, ρ, hρ => by
    simp only [wf, quiet, Bool.and_eq_true] at w q
    simp only [put, eval, eval_put hk o w.1.1 q.1.1 ρ hρ, eval_put hk k w.1.2 q.1.2 ρ hρ, eval_put hk v w.2 q.2 ρ hρ]
  | .pop o k, w, q, ρ, hρ => by
    simp only [wf, quiet, Bool.and_eq_true] at w q
    simp only [put, eval, eval_put hk o w.1.2 q.1 ρ hρ, eval_put hk k w.2 q.2 ρ hρ]
  | .delattr o k, w, q, ρ, hρ => by
    simp only [wf, quiet, Bool.and_eq_true] at w q
    simp only [put, eval, eval_put hk o w.1 q.1 ρ hρ, eval_put hk k w.2 q.2 ρ hρ]
  | .setitem _ _ _, w, _, _, _ => by simp [wf] at w
  | .bad _, w, _, _, _ => by simp [wf] at w
  | .given _ _, w, _, _, _ => by simp [wf] at w

theorem evalAll_put (hk : KeyOk R fuel N key sig r sg) : ∀ (es : List (PyExpr Val)), wfAll N es = true →
    quietAll N es = true → ∀ ρ, Both r sg ρ → evalAll R fuel (putAll N key sig es) ρ = evalAll R fuel es ρ
  | [], _, _, _, _ => rfl
  | e :: es, w, q, ρ, hρ => by
    simp only [wfAll, quietAll, Bool.and_eq_true] at w q
    simp only [putAll, evalAll, eval_put hk e w.1 q.1 ρ hρ, evalAll_put hk es w.2 q.2 ρ hρ]

theorem evalBool_put (hk : KeyOk R fuel N key sig r sg) (isAnd : Bool) : ∀ (es : List (PyExpr Val)),
    wfAll N es = true → quietAll N es = true → ∀ ρ, Both r sg ρ →
    evalBool R fuel isAnd (putAll N key sig es) ρ = evalBool R fuel isAnd es ρ
  | [], _, _, _, _ => rfl
  | [e], w, q, ρ, hρ => by
    simp only [wfAll, quietAll, Bool.and_eq_true] at w q
    simp only [putAll, evalBool, eval_put hk e w.1 q.1 ρ hρ]
  | e :: e' :: es, w, q, ρ, hρ => by
    simp only [wfAll, quietAll, Bool.and_eq_true] at w q
    have h := evalBool_put hk isAnd (e' :: es) (by simp only [wfAll, Bool.and_eq_true]; exact w.2)
      (by simp only [quietAll, Bool.and_eq_true]; exact q.2) ρ hρ
    simp only [putAll] at h ⊢
    simp only [evalBool_more, eval_put hk e w.1 q.1 ρ hρ, h]

theorem evalEqs'_put (hk : KeyOk R fuel N key sig r sg) (x : Val) : ∀ (es : List (PyExpr Val)),
    wfAll N es = true → quietAll N es = true → ∀ ρ, Both r sg ρ →
    evalEqs' R fuel x (putAll N key sig es) ρ = evalEqs' R fuel x es ρ
  | [], _, _, _, _ => rfl
  | [e], w, q, ρ, hρ => by
    simp only [wfAll, quietAll, Bool.and_eq_true] at w q
    simp only [putAll, evalEqs', eval_put hk e w.1 q.1 ρ hρ]
  | e :: e' :: es, w, q, ρ, hρ => by
    simp only [wfAll, quietAll, Bool.and_eq_true] at w q
    have h := fun y => evalEqs'_put hk y (e' :: es) (by simp only [wfAll, Bool.and_eq_true]; exact w.2)
      (by simp only [quietAll, Bool.and_eq_true]; exact q.2) ρ hρ
    simp only [putAll] at h ⊢
    simp only [evalEqs'_more, eval_put hk e w.1 q.1 ρ hρ, h]

end

/-! ## A variable which is not used -/

/-- The same variables, but for `x`. -/
def Off (x : String) (ρ ρ' : Env Val) : Prop := ∀ n, n ≠ x → ρ n = ρ' n

theorem Off.set {x : String} {ρ ρ' : Env Val} (h : Off x ρ ρ') (n : String) (y : Val) :
    Off x (ρ.set n y) (ρ'.set n y) := by
  intro m hm
  simp only [Env.set]
  split
  · rfl
  · exact h m hm

theorem runName_off {x n : String} {ρ ρ' : Env Val} (h : Off x ρ ρ') (hn : n ≠ x) :
    runName R ρ n = runName R ρ' n := by
  rw [runName, runName, h n hn]

theorem helperEnv_off {x : String} {ρ ρ' : Env Val} (h : Off x ρ ρ') (data : Val) : ∀ (args : List String),
    args.contains x = false → helperEnv R ρ data args = helperEnv R ρ' data args
  | [], _ => rfl
  | a :: as, ha => by
    simp only [List.contains_cons, Bool.or_eq_false_iff, beq_eq_false_iff_ne] at ha
    simp only [helperEnv, runName_off h (Ne.symm ha.1), helperEnv_off h data as ha.2]

set_option maxHeartbeats 1600000 in
mutual

theorem eval_off {x : String} : ∀ (e : PyExpr Val), mentions x e = false → ∀ {ρ ρ' : Env Val}, Off x ρ ρ' →
    eval R fuel e ρ = eval R fuel e ρ'
  | .name n, m, ρ, ρ', h => by
    simp only [mentions, beq_eq_false_iff_ne] at m
    exact runName_off h m
  | .sub e i, m, ρ, ρ', h => by
    simp only [mentions, Bool.or_eq_false_iff] at m
    simp only [eval, eval_off e m.1 h, eval_off i m.2 h]
  | .const _, _, _, _, _ => rfl
  | .getLabel _, _, _, _, _ => rfl
  | .addLabel l e, m, ρ, ρ', h => by
    simp only [mentions] at m
    simp only [eval, eval_off e m h]
  | .attach a b, m, ρ, ρ', h => by
    simp only [mentions, Bool.or_eq_false_iff] at m
    simp only [eval, eval_off a m.1 h, eval_off b m.2 h]
  | .dot e a, m, ρ, ρ', h => by
    simp only [mentions] at m
    simp only [eval, eval_off e m h]
  | .getattr a b, m, ρ, ρ', h => by
    simp only [mentions, Bool.or_eq_false_iff] at m
    simp only [eval, eval_off a m.1 h, eval_off b m.2 h]
  | .call f args kw, m, ρ, ρ', h => by
    simp only [mentions, Bool.or_eq_false_iff] at m
    simp only [eval, eval_off f m.1 h, evalAll_off args m.2 h]
  | .boolop isAnd es, m, ρ, ρ', h => by
    simp only [mentions] at m
    simp only [eval, evalBool_off isAnd es m h]
  | .eqs es, m, ρ, ρ', h => by
    simp only [mentions] at m
    simp only [eval]
    cases es with
    | nil => rfl
    | cons e es =>
      simp only [mentionsAny, Bool.or_eq_false_iff] at m
      simp only [evalEqs, eval_off e m.1 h]
      congr 1
      funext y
      exact evalEqs'_off y es m.2 h
  | .not e, m, ρ, ρ', h => by
    simp only [mentions] at m
    simp only [eval, eval_off e m h]
  | .bin o a b, m, ρ, ρ', h => by
    simp only [mentions, Bool.or_eq_false_iff] at m
    cases o <;> simp only [eval, eval_off a m.1 h, eval_off b m.2 h]
  | .neg e, m, ρ, ρ', h => by
    simp only [mentions] at m
    simp only [eval, eval_off e m h]
  | .ifexp t c f, m, ρ, ρ', h => by
    simp only [mentions, Bool.or_eq_false_iff] at m
    simp only [eval, eval_off t m.1.1 h, eval_off c m.1.2 h, eval_off f m.2 h]
  | .comp k item value var iter hasCond cond sort, m, ρ, ρ', h => by
    simp only [mentions, Bool.or_eq_false_iff, Bool.and_eq_false_iff] at m
    obtain ⟨⟨⟨⟨_, m1⟩, m2⟩, m3⟩, m4⟩ := m
    have e1 : ∀ y, addItem R k sort (eval R fuel item (ρ.set var y)) (eval R fuel value (ρ.set var y)) =
        addItem R k sort (eval R fuel item (ρ'.set var y)) (eval R fuel value (ρ'.set var y)) := by
      intro y
      rw [eval_off item m1 (h.set var y)]
      rcases m2 with m2 | m2
      · have hk : k ≠ .dict := by
          rintro rfl
          exact absurd m2 (by decide)
        cases k <;> first | exact absurd rfl hk | (cases sort <;> rfl)
      · rw [eval_off value m2 (h.set var y)]
    simp only [eval, e1, eval_off iter m3 h]
    cases hasCond
    · rfl
    · simp only [Bool.true_eq_false, false_or] at m4
      simp only [fun y => eval_off cond m4 (h.set var y)]
  | .display k items, m, ρ, ρ', h => by
    simp only [mentions] at m
    simp only [eval, evalAll_off items m h]
  | .getOrDefault _ _ selfGiven self obj dflt, m, ρ, ρ', h => by
    simp only [mentions, Bool.or_eq_false_iff, Bool.and_eq_false_iff] at m
    cases selfGiven
    · simp only [eval, eval_off obj m.1.2 h, eval_off dflt m.2 h, Bool.false_eq_true, if_false]
    · have m1 := m.1.1
      simp only [Bool.true_eq_false, false_or] at m1
      simp only [eval, eval_off obj m.1.2 h, eval_off dflt m.2 h, eval_off self m1 h]
  | .optItems _ _ _ _ obj args, m, ρ, ρ', h => by
    simp only [mentions, Bool.or_eq_false_iff] at m
    simp only [eval, eval_off obj m.1 h, fun d => helperEnv_off (R := R) h d args m.2]
  | .optDict _ _ _ obj args, m, ρ, ρ', h => by
    simp only [mentions, Bool.or_eq_false_iff] at m
    simp only [eval, eval_off obj m.1 h, fun d => helperEnv_off (R := R) h d args m.2]
  | .tap _ obj _ args, m, ρ, ρ', h => by
    simp only [mentions, Bool.or_eq_false_iff] at m
    simp only [eval, eval_off obj m.1 h, fun d => helperEnv_off (R := R) h d args m.2]
  | .setitem o k v, m, ρ, ρ', h => by
    simp only [mentions, Bool.or_eq_false_iff] at m
    simp only [eval, eval_off o m.1.1 h, eval_off k m.1.2 h, eval_off v m.2 h]
  | .setattr o k v, m, ρ, ρ', h => by
    simp only [mentions, Bool.or_eq_false_iff] at m
    simp only [eval, eval_off o m.1.1 h, eval_off k m.1.2 h, eval_off v m.2 h]
  | .pop o k, m, ρ, ρ', h => by
    simp only [mentions, Bool.or_eq_false_iff] at m
    simp only [eval, eval_off o m.1 h, eval_off k m.2 h]
  | .delattr o k, m, ρ, ρ', h => by
    simp only [mentions, Bool.or_eq_false_iff] at m
    simp only [eval, eval_off o m.1 h, eval_off k m.2 h]
  | .bad _, _, _, _, _ => rfl
  | .given _ _, _, _, _, _ => rfl

theorem evalAll_off {x : String} : ∀ (es : List (PyExpr Val)), mentionsAny x es = false → ∀ {ρ ρ' : Env Val},
    Off x ρ ρ' → evalAll R fuel es ρ = evalAll R fuel es ρ'
  | [], _, _, _, _ => rfl
  | e :: es, m, ρ, ρ', h => by
    simp only [mentionsAny, Bool.or_eq_false_iff] at m
    simp only [evalAll, eval_off e m.1 h, evalAll_off es m.2 h]

theorem evalBool_off {x : String} (isAnd : Bool) : ∀ (es : List (PyExpr Val)), mentionsAny x es = false →
    ∀ {ρ ρ' : Env Val}, Off x ρ ρ' → evalBool R fuel isAnd es ρ = evalBool R fuel isAnd es ρ'
  | [], _, _, _, _ => rfl
  | e :: es, m, ρ, ρ', h => by
    simp only [mentionsAny, Bool.or_eq_false_iff] at m
    cases es with
    | nil => simp only [evalBool, eval_off e m.1 h]
    | cons e' es => simp only [evalBool_more, eval_off e m.1 h, evalBool_off isAnd (e' :: es) m.2 h]

theorem evalEqs'_off {x : String} (y : Val) : ∀ (es : List (PyExpr Val)), mentionsAny x es = false →
    ∀ {ρ ρ' : Env Val}, Off x ρ ρ' → evalEqs' R fuel y es ρ = evalEqs' R fuel y es ρ'
  | [], _, _, _, _ => rfl
  | e :: es, m, ρ, ρ', h => by
    simp only [mentionsAny, Bool.or_eq_false_iff] at m
    cases es with
    | nil => simp only [evalEqs', eval_off e m.1 h]
    | cons e' es => simp only [evalEqs'_more, eval_off e m.1 h, fun y => evalEqs'_off y (e' :: es) m.2 h]

end

end

end Verif.GroupKeys
