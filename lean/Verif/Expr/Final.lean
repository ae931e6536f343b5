import Verif.Expr.Induct

/-!
# Expressions: the main theorem
-/

set_option autoImplicit false

namespace Verif.Expr

section
variable {Val U Err : Type} {R : Runtime Val U Err} {fuel : Nat} {N : Names Val} {A : Env Val}
  {P0 : (String → Option Val) → U → Prop}

theorem ok_opt (x cond : Conv Val) : GenOk R fuel N A P0 (.opt x cond) := by
  intro esc P Q m e p ρ v H ht hG
  simp only [Good] at hG

theorem PartsOk.of {c : Conv Val} (h : GenOk R fuel N A P0 c) (hc : ∀ x cond, c ≠ .opt x cond) :
    PartsOk R fuel N A P0 c := ⟨h, fun x cond hx => absurd hx (hc x cond)⟩

mutual

theorem parts_ok (hnone : NoneFalsy R) : ∀ c : Conv Val, PartsOk R fuel N A P0 c
  | .this => .of ok_this (by simp)
  | .naive l => .of (ok_naive l) (by simp)
  | .arg n => .of (ok_arg n) (by simp)
  | .label n => .of (ok_label n) (by simp)
  | .lookup attr s idx => .of (ok_lookup attr (parts_ok hnone s).1 (fun c h => (parts_all hnone idx c h).1)) (by simp)
  | .lookupD attr s idx d =>
    .of (ok_lookupD attr (parts_ok hnone s).1 (fun c h => (parts_all hnone idx c h).1) (parts_ok hnone d).1) (by simp)
  | .call s as kw => .of (ok_call kw (parts_ok hnone s).1 (fun c h => (parts_all hnone as c h).1)) (by simp)
  | .boolop isAnd as => .of (ok_boolop isAnd (fun c h => (parts_all hnone as c h).1)) (by simp)
  | .eqs as => .of (ok_eqs (fun c h => (parts_all hnone as c h).1)) (by simp)
  | .not a => .of (ok_not (parts_ok hnone a).1) (by simp)
  | .bin o a b => .of (ok_bin o (parts_ok hnone a).1 (parts_ok hnone b).1) (by simp)
  | .neg a => .of (ok_neg (parts_ok hnone a).1) (by simp)
  | .ifc c t f noCache =>
    .of (ok_ifc hnone noCache (parts_ok hnone c).1 (parts_ok hnone t).1 (parts_ok hnone f).1) (by simp)
  | .comp k item value hasCond cond sort =>
    .of (ok_comp k hasCond sort (parts_ok hnone item).1 (parts_ok hnone value).1 (parts_ok hnone cond).1) (by simp)
  | .coll k items => .of (ok_coll k (parts_all hnone items)) (by simp)
  | .dict kvs => .of (ok_dict (parts_all hnone kvs)) (by simp)
  | .opt x cond => ⟨ok_opt x cond, by
      intro x' cond' h
      cases h
      exact ⟨(parts_ok hnone x).1, (parts_ok hnone cond).1⟩⟩
  | .caching c name labels convs =>
    .of (ok_caching hnone name labels (parts_ok hnone c).1 (fun c h => (parts_all hnone convs c h).1)) (by simp)
  | .tap o ms => .of (ok_tap (parts_ok hnone o).1 (fun c h => (parts_all hnone ms c h).1)) (by simp)
  | .mutSetItem k v => .of (ok_setItem (parts_ok hnone k).1 (parts_ok hnone v).1) (by simp)
  | .mutSetAttr k v => .of (ok_setAttr (parts_ok hnone k).1 (parts_ok hnone v).1) (by simp)
  | .mutDelItem k => .of (ok_delItem (parts_ok hnone k).1) (by simp)
  | .mutDelAttr k => .of (ok_delAttr (parts_ok hnone k).1) (by simp)
  | .mutCustom c => .of (ok_custom (parts_ok hnone c).1) (by simp)
  | .pipe a b => .of (ok_pipe (parts_ok hnone a).1 (parts_ok hnone b).1) (by simp)

theorem parts_all (hnone : NoneFalsy R) : ∀ (cs : List (Conv Val)), ∀ c ∈ cs, PartsOk R fuel N A P0 c
  | [], c, h => by cases h
  | x :: xs, c, h => by
    rcases List.mem_cons.1 h with h | h
    · rw [h]; exact parts_ok hnone x
    · exact parts_all hnone xs c h

end

/-- The code of every conversion meeting the side conditions does what the conversion means. -/
theorem gen_ok (hnone : NoneFalsy R) (c : Conv Val) : GenOk R fuel N A P0 c := (parts_ok hnone c).1

end

end Verif.Expr
