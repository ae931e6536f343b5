import Verif.Stmt.Read

/-!
# Stmt: reading of `x = [e for k, v in it]`
-/

set_option autoImplicit false

namespace Verif.Stmt

open Verif.Text

section
variable {us : List Tok} {e : Ast} (h : Rd us e) (k : String) (ws : List Tok)
include h

theorem brack_none (n : Nat) : parse n .brack (us ++ .for_ :: .name k :: .comma :: ws) = none := by
  cases n with
  | zero => rfl
  | succ n =>
    have h1 := h.expr (rest := .for_ :: .name k :: .comma :: ws) (by simp [strength])
    obtain ⟨t, l, rfl, ht⟩ := h.start
    have e1 : parse (n + 1) .brack (t :: l ++ .for_ :: .name k :: .comma :: ws) =
        (parse n .expr (t :: l ++ .for_ :: .name k :: .comma :: ws)).bind fun (a, ts) =>
          match ts with
          | .for_ :: ts => parse n (.comp .list [a]) ts
          | ts => itemsNext (parse n) .list [a] ts := by
      cases t <;> first | rfl | simp [startTok] at ht
    rw [e1]
    cases hp : parse n .expr (t :: l ++ .for_ :: .name k :: .comma :: ws) with
    | none => rfl
    | some r =>
      have := ev_unique h1 (ev_of_parse hp)
      subst this
      cases n with
      | zero => rfl
      | succ n => rfl

theorem primary_none (n : Nat) : parse n .primary (.lbr :: (us ++ .for_ :: .name k :: .comma :: ws)) = none := by
  cases n with
  | zero => rfl
  | succ n => simp only [parse, parseStep, brack_none h k ws n, Option.bind_none]

theorem expr_none (n : Nat) : parse n .expr (.lbr :: (us ++ .for_ :: .name k :: .comma :: ws)) = none := by
  have h1 : ∀ n, parse n .factor (.lbr :: (us ++ .for_ :: .name k :: .comma :: ws)) = none := by
    intro n
    cases n with
    | zero => rfl
    | succ n => simp only [parse, parseStep, primary_none h k ws n]
  have h2 : ∀ n, parse n .term (.lbr :: (us ++ .for_ :: .name k :: .comma :: ws)) = none := by
    intro n
    cases n with
    | zero => rfl
    | succ n => simp only [parse, parseStep, h1 n, Option.bind_none]
  have h3 : ∀ n, parse n .arith (.lbr :: (us ++ .for_ :: .name k :: .comma :: ws)) = none := by
    intro n
    cases n with
    | zero => rfl
    | succ n => simp only [parse, parseStep, h2 n, Option.bind_none]
  have h4 : ∀ n, parse n .cmp (.lbr :: (us ++ .for_ :: .name k :: .comma :: ws)) = none := by
    intro n
    cases n with
    | zero => rfl
    | succ n => simp only [parse, parseStep, h3 n, Option.bind_none]
  have h5 : ∀ n, parse n .not (.lbr :: (us ++ .for_ :: .name k :: .comma :: ws)) = none := by
    intro n
    cases n with
    | zero => rfl
    | succ n => simp only [parse, parseStep, h4 n]
  have h6 : ∀ n, parse n .and (.lbr :: (us ++ .for_ :: .name k :: .comma :: ws)) = none := by
    intro n
    cases n with
    | zero => rfl
    | succ n => simp only [parse, parseStep, h5 n, Option.bind_none]
  have h7 : ∀ n, parse n .or (.lbr :: (us ++ .for_ :: .name k :: .comma :: ws)) = none := by
    intro n
    cases n with
    | zero => rfl
    | succ n => simp only [parse, parseStep, h6 n, Option.bind_none]
  cases n with
  | zero => rfl
  | succ n => simp only [parse, parseStep, h7 n, Option.bind_none]

theorem readAssign_none (n k' : Nat) (acc : List Ast) :
    readAssign n k' acc (.lbr :: (us ++ .for_ :: .name k :: .comma :: ws)) = none := by
  cases k' with
  | zero => rfl
  | succ k' => simp only [readAssign, primary_none h k ws n, readExpr, expr_none h k ws n, Option.map_none]

end

/-- `[e for k, v in it]`. -/
def pairToks (us : List Tok) (k v : String) (vs : List Tok) : List Tok :=
  .lbr :: (us ++ .for_ :: .name k :: .comma :: .name v :: .in_ :: (vs ++ [.rbr]))

/-- `T = [e for k, v in it]`. -/
theorem simple_pairs {ts us vs : List Tok} {t e a : Ast} (ht : Pr ts t) (hi : isTarget t = true) (he : Rd us e)
    {k v : String} (hk : isConstName k = false) (hv : isConstName v = false) (ha : Rd vs a) :
    SimpleToks (ts ++ .assign :: pairToks us k v vs) (.pairs t e k v a) := by
  obtain ⟨n1, h1⟩ := ht.read (.assign :: pairToks us k v vs) _ (ev_trailers_end (by simp [strength]))
  obtain ⟨n2, h2⟩ := he.expr (rest := .for_ :: .name k :: .comma :: .name v :: .in_ :: (vs ++ [.rbr]))
    (by simp [strength])
  obtain ⟨n3, h3⟩ := ha.or (rest := [.rbr]) (by simp [strength])
  refine ⟨n1 + n2 + n3, fun n hn => ?_⟩
  rw [readSimple_noKw (pr_noKw ht), h1 n (by omega)]
  simp only [hi, if_true, readValue, pairToks, readAssign_none he k _ n n, readPairs, h2 n (by omega), hk, hv,
    Bool.or_self, Bool.false_eq_true, if_false, h3 n (by omega)]

example : (readSimple 100 [.name "x", .assign, .lbr, .name "a", .for_, .name "k", .comma, .name "v", .in_, .name "d",
    .rbr]).isSome = true := by decide +kernel

end Verif.Stmt
