import Verif.Expr.Props
import Verif.Expr.Simple
import Verif.Expr.Model2

/-!
# C19, C21, C22: simple inputs, logical conversions, optional items
-/

set_option autoImplicit false

namespace Verif.Expr

section
variable {Val U Err : Type} {R : Runtime Val U Err} {fuel : Nat} {N : Names Val} {A : Env Val}
  {var : String → String}

/-! ## C19: the check on input code -/

/-- C19: exactly the texts consisting of word characters and quotes, possibly in one pair of parentheses, are
classified as simple. -/
theorem C19_text (t : String) :
    inputIsSimple t = true ↔ ∃ m : String, (t = m ∨ t = "(" ++ m ++ ")") ∧
      ∀ c ∈ m.toList, c.isAlphanum = true ∨ c = '_' ∨ 128 ≤ c.toNat ∨ c = '"' ∨ c = '\'' := by
  rw [simple_iff]
  refine exists_congr fun m => and_congr_right fun _ => ?_
  rw [List.all_eq_true]
  refine forall_congr' fun c => forall_congr' fun _ => ?_
  simp only [plainChar, isWord, Bool.or_eq_true, beq_iff_eq, decide_eq_true_eq]
  constructor
  · rintro ((((h | h) | h) | h) | h) <;> simp_all
  · rintro (h | h | h | h | h) <;> simp_all

/-- C19: a simple text has no call, index or attribute lookup in it. -/
theorem C19_no_call (t : String) (h : inputIsSimple t = true) :
    '[' ∉ t.toList ∧ '.' ∉ t.toList ∧ ',' ∉ t.toList ∧ ' ' ∉ t.toList ∧
      ∀ a b c, t.toList = a ++ '(' :: b → a = [] ∧ (b = c ++ [')'] → ')' ∉ c) := by
  obtain ⟨m, ht, hm⟩ := (C19_text t).1 h
  have hno : ∀ c ∈ m.toList, c ≠ '[' ∧ c ≠ '.' ∧ c ≠ ',' ∧ c ≠ ' ' ∧ c ≠ '(' ∧ c ≠ ')' := by
    intro c hc
    have := hm c hc
    refine ⟨?_, ?_, ?_, ?_, ?_, ?_⟩ <;> rintro rfl <;> revert this <;> decide
  have hin : ∀ c ∈ t.toList, c ∈ m.toList ∨ c = '(' ∨ c = ')' := by
    intro c hc
    rcases ht with rfl | rfl
    · exact Or.inl hc
    · simp only [String.toList_append, List.mem_append] at hc
      rcases hc with (hc | hc) | hc
      · exact Or.inr (Or.inl (by simpa using hc))
      · exact Or.inl hc
      · exact Or.inr (Or.inr (by simpa using hc))
  have hnot : ∀ d : Char, d ≠ '(' → d ≠ ')' → d ∉ m.toList → d ∉ t.toList := by
    intro d h1 h2 h3 hd
    rcases hin d hd with h | h | h
    · exact h3 h
    · exact h1 h
    · exact h2 h
  refine ⟨hnot _ (by decide) (by decide) (fun h => (hno _ h).1 rfl),
    hnot _ (by decide) (by decide) (fun h => (hno _ h).2.1 rfl),
    hnot _ (by decide) (by decide) (fun h => (hno _ h).2.2.1 rfl),
    hnot _ (by decide) (by decide) (fun h => (hno _ h).2.2.2.1 rfl), ?_⟩
  intro a b c hab
  rcases ht with rfl | rfl
  · exact absurd rfl (hno '(' (by rw [hab]; simp)).2.2.2.2.1
  · have hl : ("(" ++ m ++ ")").toList = '(' :: (m.toList ++ [')']) := by
      simp [String.toList_append]
    rw [hl] at hab
    have ha : a = [] := by
      cases a with
      | nil => rfl
      | cons x xs =>
        simp only [List.cons_append, List.cons.injEq] at hab
        have hmem : '(' ∈ m.toList ++ [')'] := by rw [hab.2]; simp
        simp only [List.mem_append, List.mem_singleton] at hmem
        rcases hmem with hmem | hmem
        · exact absurd rfl (hno _ hmem).2.2.2.2.1
        · exact absurd hmem (by decide)
    refine ⟨ha, ?_⟩
    subst ha
    rintro rfl hc
    simp only [List.nil_append, List.cons.injEq, true_and] at hab
    have := List.append_inj_left' hab rfl
    exact (hno ')' (by rw [this]; exact hc)).2.2.2.2.2 rfl

/-- C19: generated code whose text is simple changes nothing when it is evaluated, so evaluating it again gives the
same result.  Names and texts of constants are not empty. -/
theorem C19_no_effects (hconst : ∀ l, N.const l ≠ "") (hhelper : ∀ k p, N.helper k p ≠ "") (c : Conv Val)
    (hargs : "" ∉ c.args) (x : String) (hx : x ≠ "") (p : List Nat)
    (hsimple : inputIsSimple (render N (gen N false c (.name x) p)) = true) (ρ : Env Val) (s : St Val U) :
    (eval R fuel (gen N false c (.name x) p) ρ s).2 = s ∧
      (eval R fuel (gen N false c (.name x) p) ρ >>= fun _ => eval R fuel (gen N false c (.name x) p) ρ) s =
        eval R fuel (gen N false c (.name x) p) ρ s := by
  have hq : QuietIf R fuel N (gen N false c (.name x) p) :=
    quiet_gen hconst hhelper c false _ p hargs (.quiet (quiet_name x) (by simpa [render] using hx))
  have h1 : (eval R fuel (gen N false c (.name x) p) ρ s).2 = s := hq.1 hsimple ρ s
  refine ⟨h1, ?_⟩
  rw [bind_run]
  cases h : eval R fuel (gen N false c (.name x) p) ρ s with
  | mk r s' =>
    rw [h] at h1
    dsimp only at h1
    subst h1
    cases r with
    | ok y => exact h
    | error e => rfl

example : inputIsSimple "(abc_1)" = true ∧ inputIsSimple "'key'" = true ∧ inputIsSimple "f(x)" = false ∧
    inputIsSimple "x[0]" = false ∧ inputIsSimple "(a)(b)" = false := by
  refine ⟨?_, ?_, ?_, ?_, ?_⟩ <;> rfl

/-! ## C21: logical conversions -/

/-- `and_` and `or_`: operands are run from left to right on the same input.  The first one with the other truth
value ends it, and its value is the result; the last one is not tested.  Exceptions end it. -/
def shortCircuit (R : Runtime Val U Err) (isAnd : Bool) (run : Conv Val → St Val U → Except Err Val × St Val U) :
    List (Conv Val) → St Val U → Except Err Val × St Val U
  | [], s => (.error R.bad, s)
  | [c], s => run c s
  | c :: d :: rest, s =>
    match run c s with
    | (.error e, s') => (.error e, s')
    | (.ok x, s') =>
      match R.truthy x s'.u with
      | (.error e, u) => (.error e, { s' with u := u })
      | (.ok b, u) =>
        if b = isAnd then shortCircuit R isAnd run (d :: rest) { s' with u := u }
        else (.ok x, { s' with u := u })

/-- The comparisons of `a == b == …` after `a`, whose value is `x`. -/
def chain (R : Runtime Val U Err) (run : Conv Val → St Val U → Except Err Val × St Val U) (x : Val) :
    List (Conv Val) → St Val U → Except Err Val × St Val U
  | [], s => (.ok x, s)
  | [c], s =>
    match run c s with
    | (.error e, s') => (.error e, s')
    | (.ok y, s') =>
      match R.op .eq [x, y] s'.u with
      | (.error e, u) => (.error e, { s' with u := u })
      | (.ok r, u) => (.ok r, { s' with u := u })
  | c :: d :: rest, s =>
    match run c s with
    | (.error e, s') => (.error e, s')
    | (.ok y, s') =>
      match R.op .eq [x, y] s'.u with
      | (.error e, u) => (.error e, { s' with u := u })
      | (.ok r, u) =>
        match R.truthy r u with
        | (.error e, u') => (.error e, { s' with u := u' })
        | (.ok b, u') =>
          if b then chain R run y (d :: rest) { s' with u := u' } else (.ok r, { s' with u := u' })

theorem denBool_short (isAnd : Bool) (v : Val) : ∀ (cs : List (Conv Val)) (s : St Val U),
    denBool R fuel A isAnd cs v s = shortCircuit R isAnd (fun c => den R fuel A c v) cs s
  | [], s => rfl
  | [c], s => by
    simp only [denBool, shortCircuit]
    rw [bind_run]
    cases den R fuel A c v s with
    | mk r s' => cases r <;> rfl
  | c :: d :: rest, s => by
    refine Eq.trans ?_ (shortCircuit.eq_3 ..).symm
    rw [denBool.eq_2, bind_run]
    cases den R fuel A c v s with
    | mk r s' =>
      cases r with
      | error e => rfl
      | ok x =>
        dsimp only
        rw [truthy_run]
        cases R.truthy x s'.u with
        | mk r u =>
          cases r with
          | error e => rfl
          | ok b =>
            dsimp only
            split
            · exact denBool_short isAnd v (d :: rest) _
            · rfl

theorem denEqs_chain (v : Val) : ∀ (cs : List (Conv Val)) (x : Val) (s : St Val U),
    denEqs' R fuel A x cs v s = chain R (fun c => den R fuel A c v) x cs s
  | [], x, s => rfl
  | [c], x, s => by
    refine Eq.trans ?_ (chain.eq_2 ..).symm
    rw [denEqs'.eq_2, bind_run]
    cases den R fuel A c v s with
    | mk r s' =>
      cases r with
      | error e => rfl
      | ok y =>
        dsimp only
        rw [op_run]
        cases R.op .eq [x, y] s'.u with
        | mk r u => cases r <;> rfl
  | c :: d :: rest, x, s => by
    refine Eq.trans ?_ (chain.eq_3 ..).symm
    rw [denEqs'.eq_2, bind_run]
    cases den R fuel A c v s with
    | mk r s' =>
      cases r with
      | error e => rfl
      | ok y =>
        dsimp only
        rw [op_run]
        cases R.op .eq [x, y] s'.u with
        | mk r u =>
          cases r with
          | error e => rfl
          | ok z =>
            dsimp only
            rw [truthy_run]
            cases R.truthy z u with
            | mk r u' =>
              cases r with
              | error e => rfl
              | ok b =>
                dsimp only
                split
                · exact denEqs_chain v (d :: rest) y _
                · rfl

/-- C21: the code of `and_` and `or_` runs its operands from left to right up to the first one which decides. -/
theorem C21_and_or (hnone : NoneFalsy R) (hN : NamesOk N) (hvar : ∀ t, VarOk N (var t)) (tp : Bool)
    (ht : tp = true → ∀ v u, ∃ b, R.truthy v u = (.ok b, u)) (isAnd : Bool) (cs : List (Conv Val))
    (hc : okAll tp true cs = true) (hfit : ArgsFit N var A (argsAll cs)) (data : Val) (s : St Val U) :
    view (converter R fuel N var (.boolop isAnd cs) A data s) =
      view (shortCircuit R isAnd (fun c => den R fuel A c data) cs s) := by
  rw [C13_checked_partial hnone hN hvar tp ht (.boolop isAnd cs)
    (by intro d hd; simp only [stages, List.mem_singleton] at hd; subst hd; simpa only [Conv.ok] using hc)
    (by simpa only [Conv.args] using hfit), den, denBool_short]

/-- C21: the code of `a == b == …` compares neighbours from left to right up to the first comparison which fails;
every operand is run at most once. -/
theorem C21_eq (hnone : NoneFalsy R) (hN : NamesOk N) (hvar : ∀ t, VarOk N (var t)) (tp : Bool)
    (ht : tp = true → ∀ v u, ∃ b, R.truthy v u = (.ok b, u)) (c : Conv Val) (cs : List (Conv Val))
    (hc : okAll tp true (c :: cs) = true) (hfit : ArgsFit N var A (argsAll (c :: cs))) (data : Val) (s : St Val U) :
    view (converter R fuel N var (.eqs (c :: cs)) A data s) =
      view (match den R fuel A c data s with
        | (.error e, s') => (.error e, s')
        | (.ok x, s') => chain R (fun c => den R fuel A c data) x cs s') := by
  rw [C13_checked_partial hnone hN hvar tp ht (.eqs (c :: cs))
    (by intro d hd; simp only [stages, List.mem_singleton] at hd; subst hd; simpa only [Conv.ok] using hc)
    (by simpa only [Conv.args] using hfit), den, denEqs, bind_run]
  cases den R fuel A c data s with
  | mk r s' =>
    cases r with
    | error e => rfl
    | ok x => exact congrArg view (denEqs_chain data cs x s')

/-- The conversion gives `x` on the input `v`, without any effect. -/
def Gives (R : Runtime Val U Err) (fuel : Nat) (A : Env Val) (c : Conv Val) (v x : Val) : Prop :=
  ∀ s : St Val U, den R fuel A c v s = (.ok x, s)

/-- Each conversion gives the value at the same place, without any effect. -/
inductive AllGive (R : Runtime Val U Err) (fuel : Nat) (A : Env Val) (v : Val) : List (Conv Val) → List Val → Prop
  | nil : AllGive R fuel A v [] []
  | cons {c : Conv Val} {x : Val} {cs : List (Conv Val)} {xs : List Val} : Gives R fuel A c v x →
      AllGive R fuel A v cs xs → AllGive R fuel A v (c :: cs) (x :: xs)

theorem short_value (isAnd : Bool) (truth : Val → Bool) (htr : ∀ x u, R.truthy x u = (.ok (truth x), u)) (v : Val) :
    ∀ {cs : List (Conv Val)} {xs : List Val}, AllGive R fuel A v cs xs → (hne : xs ≠ []) → ∀ s : St Val U,
    shortCircuit R isAnd (fun c => den R fuel A c v) cs s =
      (.ok ((xs.find? (fun x => truth x != isAnd)).getD (xs.getLast hne)), s)
  | _, _, .nil, hne, _ => absurd rfl hne
  | _, _, .cons (c := c) (x := x) hx .nil, _, s => by
    simp only [shortCircuit]
    rw [hx s]
    by_cases h : (truth x != isAnd) = true
    · simp [List.find?_cons, h]
    · simp [List.find?_cons, h]
  | _, _, .cons (c := c) (x := x) hx (.cons (c := d) (x := y) (cs := rest) (xs := ys) hy hrest), _, s => by
    simp only [shortCircuit]
    rw [hx s]
    dsimp only
    rw [htr x s.u]
    dsimp only
    by_cases h : truth x = isAnd
    · rw [if_pos h, short_value isAnd truth htr v (.cons hy hrest) (by simp) s]
      rw [show (x :: y :: ys).find? (fun x => truth x != isAnd) = (y :: ys).find? (fun x => truth x != isAnd) from
        List.find?_cons_of_neg (by simp [h]), List.getLast_cons (a := x) (l := y :: ys) (by simp)]
    · rw [if_neg h, List.find?_cons_of_pos (by simpa using h)]
      rfl

/-- C21: with operands and truth tests free of effects, the result of `and_` (`or_`) is the first falsy (truthy)
value, and the last one if there is none. -/
theorem C21_value (hnone : NoneFalsy R) (hN : NamesOk N) (hvar : ∀ t, VarOk N (var t)) (truth : Val → Bool)
    (htr : ∀ x u, R.truthy x u = (.ok (truth x), u)) (isAnd : Bool) (cs : List (Conv Val))
    (hc : okAll true true cs = true) (hfit : ArgsFit N var A (argsAll cs)) (data : Val) (xs : List Val)
    (hxs : AllGive R fuel A data cs xs) (hne : xs ≠ []) (s : St Val U) :
    view (converter R fuel N var (.boolop isAnd cs) A data s) =
      (.ok ((xs.find? (fun x => truth x != isAnd)).getD (xs.getLast hne)), s.labels, s.u) := by
  rw [C21_and_or hnone hN hvar true (fun _ v u => ⟨_, htr v u⟩) isAnd cs hc hfit data s,
    short_value isAnd truth htr data hxs hne s]
  rfl

theorem chain_value (truth : Val → Bool) (htr : ∀ x u, R.truthy x u = (.ok (truth x), u)) (eq : Val → Val → Val)
    (heq : ∀ x y u, R.op .eq [x, y] u = (.ok (eq x y), u)) (v : Val) :
    ∀ {cs : List (Conv Val)} {xs : List Val} (x : Val), AllGive R fuel A v cs xs →
    (hne : List.zipWith eq (x :: xs) xs ≠ []) → ∀ s : St Val U,
    chain R (fun c => den R fuel A c v) x cs s =
      (.ok (((List.zipWith eq (x :: xs) xs).find? (fun r => !truth r)).getD
        ((List.zipWith eq (x :: xs) xs).getLast hne)), s)
  | _, _, x, .nil, hne, _ => absurd rfl hne
  | _, _, x, .cons (c := c) (x := y) hy .nil, _, s => by
    simp only [chain]
    rw [hy s]
    dsimp only
    rw [heq x y s.u]
    by_cases h : truth (eq x y) = true
    · simp [List.find?_cons, h]
    · simp [List.find?_cons, h]
  | _, _, x, .cons (c := c) (x := y) hy (.cons (c := d) (x := z) (cs := rest) (xs := zs) hz hrest), _, s => by
    simp only [chain]
    rw [hy s]
    dsimp only
    rw [heq x y s.u]
    dsimp only
    rw [htr (eq x y) s.u]
    dsimp only
    by_cases h : truth (eq x y) = true
    · rw [if_pos h, chain_value truth htr eq heq v y (.cons hz hrest) (by simp) s]
      have hz : List.zipWith eq (x :: y :: z :: zs) (y :: z :: zs) =
          eq x y :: List.zipWith eq (y :: z :: zs) (z :: zs) := rfl
      simp only [hz]
      rw [show (eq x y :: List.zipWith eq (y :: z :: zs) (z :: zs)).find? (fun r => !truth r) =
          (List.zipWith eq (y :: z :: zs) (z :: zs)).find? (fun r => !truth r) from
        List.find?_cons_of_neg (by simp [h]), List.getLast_cons (a := eq x y) (l := List.zipWith eq (y :: z :: zs) (z :: zs)) (by simp)]
    · rw [if_neg h]
      have hz : List.zipWith eq (x :: y :: z :: zs) (y :: z :: zs) =
          eq x y :: List.zipWith eq (y :: z :: zs) (z :: zs) := rfl
      simp only [hz]
      rw [List.find?_cons_of_pos (by simpa using h)]
      rfl

/-- C21: with operands, comparisons and truth tests free of effects, the result of `a == b == …` is the first
comparison of neighbours which fails, and the last comparison if there is none. -/
theorem C21_eq_value (hnone : NoneFalsy R) (hN : NamesOk N) (hvar : ∀ t, VarOk N (var t)) (truth : Val → Bool)
    (htr : ∀ x u, R.truthy x u = (.ok (truth x), u)) (eq : Val → Val → Val)
    (heq : ∀ x y u, R.op .eq [x, y] u = (.ok (eq x y), u)) (cs : List (Conv Val))
    (hc : okAll true true cs = true) (hfit : ArgsFit N var A (argsAll cs)) (data : Val) (xs : List Val)
    (hxs : AllGive R fuel A data cs xs) (hne : List.zipWith eq xs xs.tail ≠ []) (s : St Val U) :
    view (converter R fuel N var (.eqs cs) A data s) =
      (.ok (((List.zipWith eq xs xs.tail).find? (fun r => !truth r)).getD
        ((List.zipWith eq xs xs.tail).getLast hne)), s.labels, s.u) := by
  cases hxs with
  | nil => exact absurd rfl hne
  | cons hx hrest =>
    rw [C21_eq hnone hN hvar true (fun _ v u => ⟨_, htr v u⟩) _ _ hc hfit data s, hx s]
    exact congrArg view (chain_value truth htr eq heq data _ hrest hne s)

section
open Toy

/-- `c.and_(inc(data), data > 1, boom(data))` stops at the second operand. -/
example : result (.boolop true [callInc, .bin .gt .this (.naive (.int 1)),
    .call (.naive (.obj (.fn "boom"))) [.this] []]) noArgs (.int 1) = .ok (.bool false) := by rfl

example : calls (.boolop true [callInc, .bin .gt .this (.naive (.int 1)),
    .call (.naive (.obj (.fn "boom"))) [.this] []]) noArgs (.int 1) = ["inc"] := by rfl

example (s : St V World) : view (converter Toy.R 100 Toy.N Toy.var
    (.boolop false [.naive (.int 0), .naive (.str ""), .this, .naive (.int 7)]) noArgs (.int 3) s) =
    (.ok (.int 3), s.labels, s.u) :=
  C21_value noneFalsy namesOk varOk truthy (fun _ _ => rfl) false _ (by rfl) noFit (.int 3)
    [.int 0, .str "", .int 3, .int 7]
    (.cons (fun _ => rfl) (.cons (fun _ => rfl) (.cons (fun _ => rfl) (.cons (fun _ => rfl) .nil)))) (by simp) s

example (s : St V World) : view (converter Toy.R 100 Toy.N Toy.var
    (.eqs [.this, .naive (.int 3), .naive (.int 4), .naive (.int 4)]) noArgs (.int 3) s) =
    (.ok (.bool false), s.labels, s.u) :=
  C21_eq_value noneFalsy namesOk varOk truthy (fun _ _ => rfl) (fun a b => .bool (a.same b)) (fun _ _ _ => rfl) _
    (by rfl) noFit (.int 3) [.int 3, .int 3, .int 4, .int 4]
    (.cons (fun _ => rfl) (.cons (fun _ => rfl) (.cons (fun _ => rfl) (.cons (fun _ => rfl) .nil)))) (by simp) s

end

end

end Verif.Expr
