import Verif.Heap.Deps2
import Verif.Heap.Props
/-!
# The invariant of `Deps` under all derivations
-/
set_option autoImplicit false

namespace Verif.Heap

variable {P : Type} {own : P → Bool}

local notation "Addr" => Nat

/-! ## Clones are new -/

/-- Nothing refers to `a` and nothing has it as a dependency. -/
structure Unseen (h : Heap P) (a : Addr) : Prop where
  lt : a < h.nodes.length
  noRef : NoRef h a
  noDep : ∀ (q : Addr) n, h.nodes[q]? = some n → a ∉ n.deps

theorem Unseen.cloneLoop {a : Addr} (k : Nat) : ∀ {h : Heap P} (conv : Addr), Unseen h a →
    Unseen (cloneLoop k h conv).1 a := by
  induction k with
  | zero => intro h conv u; exact u
  | succ k ih =>
    intro h conv u
    simp only [Heap.cloneLoop]
    split
    · exact u
    · split
      · exact u
      · split
        · exact u
        · rename_i p _ h1 p' hcl
          obtain ⟨np, hnp, e'⟩ := cloneOne_some hcl
          have e1 : h1 = (alloc h np).1 := congrArg Prod.fst e'
          have e2 : p' = h.nodes.length := congrArg Prod.snd e'
          subst e1 e2
          apply ih
          refine ⟨by rw [modify_length, alloc_length]; exact Nat.lt_succ_of_lt u.lt, ?_, ?_⟩
          · refine (u.noRef.alloc np (u.noRef _ _ hnp)).modify _ _ fun n hn hm => ?_
            simp only [children, Option.toList, List.mem_append, List.mem_cons, List.not_mem_nil,
              or_false] at hn hm
            rcases hm with ((((e | e) | e) | e) | e) | e
            · exact Nat.ne_of_lt u.lt e
            · exact hn (.inl (.inl (.inl (.inl (.inr e)))))
            · exact hn (.inl (.inl (.inl (.inr e))))
            · exact hn (.inl (.inl (.inr e)))
            · exact hn (.inl (.inr e))
            · exact hn (.inr e)
          · intro q n hn
            rw [modify_nodes] at hn
            have old : ∀ m, (alloc h np).1.nodes[q]? = some m → a ∉ m.deps := by
              intro m hm
              rw [alloc_nodes] at hm
              split at hm
              · cases hm; exact u.noDep _ np hnp
              · exact u.noDep q m hm
            split at hn
            · obtain ⟨m, hm, rfl⟩ := Option.map_eq_some_iff.1 hn
              exact old m hm
            · exact old n hn

/-- The result of `clone` is a new object nothing refers to. -/
theorem clone_unseen {h h' : Heap P} (hc : Closed h) {k : Nat} {a r : Addr}
    (e : clone k h a = (h', .ok r)) : Unseen h' r ∧ r = h.nodes.length := by
  simp only [clone] at e
  split at e
  · simp at e
  · rename_i h1 r1 hcl
    obtain ⟨nd, hnd, e'⟩ := cloneOne_some hcl
    have e1 : h1 = (alloc h nd).1 := congrArg Prod.fst e'
    have e2 : r1 = h.nodes.length := congrArg Prod.snd e'
    subst e1 e2
    have u : Unseen (alloc h nd).1 h.nodes.length := by
      have nr := hc.noRef (Nat.le_refl h.nodes.length)
      refine ⟨by rw [alloc_length]; exact Nat.lt_succ_self _, nr.alloc nd (nr _ _ hnd), ?_⟩
      intro q n hn hm
      rw [alloc_nodes] at hn
      split at hn
      · cases hn
        exact Nat.lt_irrefl _ ((hc a nd hnd).2.2 _ hm)
      · exact Nat.lt_irrefl _ ((hc q n hn).2.2 _ hm)
    have := u.cloneLoop k h.nodes.length
    split at e
    · rename_i heq
      rw [heq] at this
      simp only [Prod.mk.injEq, Except.ok.injEq] at e
      rw [← e.1, ← e.2]
      exact ⟨this, rfl⟩
    · simp at e

theorem cloneLoop_covers (k : Nat) : ∀ (h h' : Heap P) (conv : Addr),
    conv + 1 = h.nodes.length → cloneLoop k h conv = (h', .ok ()) →
    ∃ rs, Path h' conv rs ∧ ∀ y, conv ≤ y → y < h'.nodes.length → y ∈ rs := by
  induction k with
  | zero => intro h h' conv _ e; simp [cloneLoop] at e
  | succ k ih =>
    intro h h' conv hl e
    simp only [cloneLoop] at e
    split at e
    · simp at e
    · rename_i nd hnd
      split at e
      · rename_i hp
        simp only [Prod.mk.injEq, and_true] at e
        subst e
        refine ⟨[conv], .last hnd hp, fun y h1 h2 => ?_⟩
        simp; omega
      · rename_i p hp
        split at e
        · simp at e
        · rename_i h1 p' hcl
          obtain ⟨np, hnp, e'⟩ := cloneOne_some hcl
          have e1 : h1 = (alloc h np).1 := congrArg Prod.fst e'
          have e2 : p' = h.nodes.length := congrArg Prod.snd e'
          subst e1 e2
          have hlen : h.nodes.length + 1 = (modify (alloc h np).1 conv
              fun m => { m with pred := some h.nodes.length }).nodes.length := by
            rw [modify_length, alloc_length]
          obtain ⟨rs, q1, q2⟩ := ih _ _ _ hlen e
          have hext := cloneLoop_ext (n := h.nodes.length) (m := 0) k (modify (alloc h np).1 conv
              fun m => { m with pred := some h.nodes.length }) h.nodes.length (by omega)
              (Nat.le_refl _)
          rw [e] at hext
          have hnd' : h'.nodes[conv]? = some { nd with pred := some h.nodes.length } := by
            rw [hext.nodes conv (by omega), modify_nodes, if_pos rfl, alloc_nodes,
              if_neg (by omega), hnd]
            rfl
          refine ⟨conv :: rs, .step hnd' rfl q1, fun y h1 h2 => ?_⟩
          by_cases hy : y = conv
          · simp [hy]
          · exact List.mem_cons_of_mem _ (q2 y (by omega) h2)

/-- The chain of a clone consists of all objects made by `clone`. -/
theorem clone_covers {h h' : Heap P} {k : Nat} {a r : Addr} (e : clone k h a = (h', .ok r)) :
    ∃ rs, Path h' r rs ∧ ∀ y, h.nodes.length ≤ y → y < h'.nodes.length → y ∈ rs := by
  simp only [clone] at e
  split at e
  · simp at e
  · rename_i h1 r1 hcl
    obtain ⟨nd, hnd, e'⟩ := cloneOne_some hcl
    have e1 : h1 = (alloc h nd).1 := congrArg Prod.fst e'
    have e2 : r1 = h.nodes.length := congrArg Prod.snd e'
    subst e1 e2
    split at e
    · rename_i heq
      simp only [Prod.mk.injEq, Except.ok.injEq] at e
      obtain ⟨rfl, rfl⟩ := e
      exact cloneLoop_covers k _ _ _ (by rw [alloc_length]) heq
    · simp at e

/-! ## set_predefined_input -/

theorem Path.dependsOn {h : Heap P} {a : Addr} {as : List Addr} (p : Path h a as) (x b : Addr) :
    Path (dependsOn h x b) a as := p.congr fun y _ => pred_dependsOn h x b y

theorem Inv.setInputLoop (inp : Addr) (U : Addr → Prop) (k : Nat) : ∀ (h : Heap P) (conv : Addr)
    (rs : List Addr), Path h conv rs → (∀ x ∈ rs, U x) → (∀ x ∈ rs, inp ≠ x) → Inv own h →
    inp < h.nodes.length →
    (∀ (q : Addr) n, h.nodes[q]? = some n → ∀ c ∈ children h n, U c → U q) →
    (∀ y, U y → y < h.nodes.length → Has own h y inp ∨ y ∈ rs) →
    Inv own (setInputLoop inp k h conv).1 := by
  induction k with
  | zero => intro h conv rs _ _ _ i _ _ _; exact i
  | succ k ih =>
    intro h conv rs p hU hne i hi hup hhas
    have hcv : conv ∈ rs := by cases p <;> simp
    have hlt := p.lt conv hcv
    have i1 := i.dependsOn conv hi
    have hup1 : ∀ (q : Addr) n, (Heap.dependsOn h conv inp).nodes[q]? = some n →
        ∀ c ∈ children (Heap.dependsOn h conv inp) n, U c → U q := by
      intro q n hn c hcm
      simp only [Heap.dependsOn, modify_nodes] at hn
      rw [Heap.dependsOn, children_modify] at hcm
      split at hn
      · obtain ⟨m, hm, rfl⟩ := Option.map_eq_some_iff.1 hn
        exact hup q m hm c hcm
      · exact hup q n hn c hcm
    simp only [Heap.setInputLoop]
    split
    · exact i
    · rename_i nd hnd
      split
      · rename_i hp
        have hrs : rs = [conv] := p.det (.last hnd hp)
        subst hrs
        refine i1.assign U conv [inp] _ (by simp; rw [dependsOn_length]; exact hi)
          (hU conv (by simp)) (fun n => ⟨rfl, rfl, rfl, fun c hcm => ?_⟩) hup1 ?_
        · simp only [children, Option.toList, List.mem_append, List.mem_cons, List.not_mem_nil,
            or_false] at hcm ⊢
          rcases hcm with ((((e | e) | e) | e) | e) | e
          · exact .inr e
          · exact .inl (.inl (.inl (.inl (.inl (.inr e)))))
          · exact .inl (.inl (.inl (.inl (.inr e))))
          · exact .inl (.inl (.inl (.inr e)))
          · exact .inl (.inl (.inr e))
          · exact .inl (.inr e)
        · intro y hy hyl c hcm
          rw [List.mem_singleton.1 hcm]
          rw [dependsOn_length] at hyl
          rcases hhas y hy hyl with e | e
          · exact e.dependsOn _ _ (hne conv (by simp))
          · rw [List.mem_singleton.1 e]
            exact Has.of_dependsOn hlt (hne conv (by simp))
      · rename_i b hp
        cases p with
        | last q1 q2 => rw [hnd] at q1; cases q1; rw [hp] at q2; cases q2
        | step q1 q2 q3 =>
          rw [hnd] at q1
          cases q1
          rw [hp] at q2
          cases q2
          refine ih _ _ _ (q3.dependsOn conv inp) (fun x hx => hU x (List.mem_cons_of_mem _ hx))
            (fun x hx => hne x (List.mem_cons_of_mem _ hx)) i1 (by rw [dependsOn_length]; exact hi)
            hup1 fun y hy hyl => ?_
          rw [dependsOn_length] at hyl
          rcases hhas y hy hyl with e | e
          · exact .inl (e.dependsOn _ _ (hne conv (by simp)))
          · rcases List.mem_cons.1 e with e | e
            · rw [e]
              exact .inl (Has.of_dependsOn hlt (hne conv (by simp)))
            · exact .inr e

theorem setPredefinedInput_heap (maxLen : Nat) (h : Heap P) (a inp : Addr) :
    (setPredefinedInput maxLen h a inp).1 = (Heap.setInputLoop inp (maxLen - 1) h a).1 := by
  simp only [setPredefinedInput]
  split <;> simp_all

/-- Objects older than `n` do not refer to objects that are not. -/
theorem upClosed_new {h h' : Heap P} {m : Nat} (hc : Closed h)
    (e : Ext h.nodes.length m h h') (hm : h.dicts.length ≤ m) :
    ∀ (q : Addr) n, h'.nodes[q]? = some n → ∀ c ∈ children h' n, h.nodes.length ≤ c →
      h.nodes.length ≤ q := by
  intro q n hn c hcm hcl
  by_cases hq : h.nodes.length ≤ q
  · exact hq
  · exfalso
    rw [e.nodes q (by omega)] at hn
    obtain ⟨q1, q2, _⟩ := hc q n hn
    rw [children_congr (h := h) n (fun d hd => e.dicts d (Nat.lt_of_lt_of_le (q2 d hd) hm))] at hcm
    exact absurd (q1 c hcm) (by omega)

/-! ## Derivations -/

theorem clone_length_le {h : Heap P} (k : Nat) (a : Addr) :
    h.nodes.length ≤ (clone k h a).1.nodes.length :=
  (clone_ext (n := 0) (m := 0) k h a (Nat.zero_le _)).len

/-- The result of labelling a conversion. -/
theorem Inv.labelled {h : Heap P} (i : Inv own h) (cls : Cls P) {a : Addr} (ha : a < h.nodes.length)
    (ls : List (String × Option Addr))
    (hc : ∀ e ∈ ls, ∀ c, e.2 = some c → c < h.nodes.length) : Inv own (labelled cls h a ls).1 := by
  simp only [Heap.labelled]
  split
  · exact i
  · obtain ⟨i1, f1⟩ := i.mkCaching cls ha
    refine (i1.addLabels cls ls f1 fun e he c hx => ?_).1
    rw [mkCaching_length]
    have := hc e he c hx
    exact ⟨Nat.lt_succ_of_lt this, Nat.ne_of_lt this⟩

theorem addLabels_result (cls : Cls P) (a : Addr) (ls : List (String × Option Addr)) :
    ∀ (h h1 : Heap P) (r : Nat), addLabels cls h a ls = (h1, .ok r) → r = a := by
  induction ls with
  | nil => intro h h1 r e; simp [addLabels] at e; exact e.2.symm
  | cons x ls ih =>
    intro h h1 r e
    obtain ⟨l, c⟩ := x
    simp only [addLabels] at e
    split at e
    · exact ih _ _ _ e
    · simp at e

theorem addLabel_predOf (cls : Cls P) (h : Heap P) (a : Addr) (l : String) (c? : Option Addr)
    (x : Addr) (hx : x < h.nodes.length) :
    ((addLabel cls h a l c?).1.nodes[x]?).map (·.pred) = (h.nodes[x]?).map (·.pred) := by
  have hl : ((labelConv cls h c?).1.nodes[x]?).map (·.pred) = (h.nodes[x]?).map (·.pred) := by
    cases c? with
    | some c => rfl
    | none =>
      simp only [labelConv]
      rw [(construct_ext (n := h.nodes.length) (m := 0) h cls.bareItem none [] (Nat.le_refl _)).nodes
        x hx]
  simp only [addLabel]
  split
  · rfl
  · split
    · rfl
    · split
      · rfl
      · split
        · simp only [modify_nodes]
          split
          · rename_i e
            subst e
            have := pred_dependsOn (labelConv cls h c?).1 a (labelConv cls h c?).2 a
            rw [hl] at this
            rw [← this]
            cases (dependsOn (labelConv cls h c?).1 a (labelConv cls h c?).2).nodes[a]? <;> simp
          · rw [pred_dependsOn, hl]
        · simp only
          rw [pred_dependsOn, hl]

theorem addLabels_predOf (cls : Cls P) (a x : Addr) (ls : List (String × Option Addr)) :
    ∀ h : Heap P, x < h.nodes.length →
    ((addLabels cls h a ls).1.nodes[x]?).map (·.pred) = (h.nodes[x]?).map (·.pred) := by
  induction ls with
  | nil => intro h _; rfl
  | cons y ls ih =>
    intro h hx
    obtain ⟨l, c⟩ := y
    have e := addLabel_predOf cls h a l c x hx
    have hl := Nat.lt_of_lt_of_le hx (addLabel_length_le cls h a l c)
    simp only [addLabels]
    split
    · rename_i heq
      rw [heq] at e hl
      rw [ih _ hl, e]
    · rename_i heq
      rw [heq] at e
      exact e

/-- A labelled conversion is a new object without input that nothing refers to. -/
theorem labelled_new {h h1 : Heap P} (i : Inv own h) (cls : Cls P) {a r : Addr} (ha : a < h.nodes.length)
    (ls : List (String × Option Addr)) (hne : ls.isEmpty = false)
    (hc : ∀ e ∈ ls, ∀ c, e.2 = some c → c < h.nodes.length)
    (e : labelled cls h a ls = (h1, .ok r)) :
    r = h.nodes.length ∧ r < h1.nodes.length ∧ NoRef h1 r ∧ Path h1 r [r] := by
  simp only [labelled, hne] at e
  obtain ⟨i1, f1⟩ := i.mkCaching cls ha
  have fr := (i1.addLabels cls ls f1 fun e he c hx => by
    rw [mkCaching_length]
    have := hc e he c hx
    exact ⟨Nat.lt_succ_of_lt this, Nat.ne_of_lt this⟩).2
  have hk : (mkCaching cls h a).2 = h.nodes.length := rfl
  have e' : addLabels cls (mkCaching cls h a).1 h.nodes.length ls = (h1, .ok r) := by
    simpa [hk] using e
  have hr := addLabels_result cls _ ls _ _ _ e'
  have hp := addLabels_predOf cls h.nodes.length h.nodes.length ls (mkCaching cls h a).1 f1.lt
  rw [e'] at fr hp
  subst hr
  refine ⟨rfl, fr.lt, fr.noRef, ?_⟩
  have hpk : ((mkCaching cls h a).1.nodes[h.nodes.length]?).map (·.pred) = some none := by
    simp only [mkCaching, construct, alloc, Option.toList, List.nil_append, List.foldl_cons,
      List.foldl_nil, dependsOn, modify_nodes, if_true]
    simp
  rw [hpk] at hp
  obtain ⟨n, hn, hpn⟩ := Option.map_eq_some_iff.1 hp
  exact .last hn hpn

theorem labelled_length_le (cls : Cls P) (h : Heap P) (a : Addr) (ls : List (String × Option Addr)) :
    h.nodes.length ≤ (labelled cls h a ls).1.nodes.length := by
  have key : ∀ (ls : List (String × Option Addr)) (h : Heap P) (a : Addr),
      h.nodes.length ≤ (addLabels cls h a ls).1.nodes.length := by
    intro ls
    induction ls with
    | nil => intro h a; exact Nat.le_refl _
    | cons e ls ih =>
      intro h a
      obtain ⟨l, c⟩ := e
      have := addLabel_length_le cls h a l c
      simp only [addLabels]
      split
      · rename_i heq
        rw [heq] at this
        exact Nat.le_trans this (ih _ _)
      · rename_i heq
        rw [heq] at this
        exact this
  simp only [labelled]
  split
  · exact Nat.le_refl _
  · refine Nat.le_trans ?_ (key _ _ _)
    rw [mkCaching_length]
    exact Nat.le_succ _

theorem labelled_result_lt (cls : Cls P) {h h1 : Heap P} (i : Inv own h) {a r : Addr}
    (ha : a < h.nodes.length) (ls : List (String × Option Addr))
    (hc : ∀ e ∈ ls, ∀ c, e.2 = some c → c < h.nodes.length)
    (e : labelled cls h a ls = (h1, .ok r)) : r < h1.nodes.length := by
  cases hne : ls.isEmpty with
  | true =>
    simp only [labelled, hne, if_true, Prod.mk.injEq, Except.ok.injEq] at e
    rw [← e.1, ← e.2]; exact ha
  | false => exact (labelled_new i cls ha ls hne hc e).2.1

theorem Inv.pipe {h : Heap P} (i : Inv own h) (cls : Cls P) (maxLen : Nat) (self next : Addr)
    (li lo : List (String × Option Addr)) (hn : next < h.nodes.length)
    (cs : Clean own h self) (cn : Clean own h next)
    (hli : ∀ e ∈ li, ∀ c, e.2 = some c → c < h.nodes.length)
    (hlo : ∀ e ∈ lo, ∀ c, e.2 = some c → c < h.nodes.length) :
    Inv own (pipe cls maxLen h self next li lo).1 := by
  simp only [Heap.pipe]
  have i1 := i.clone maxLen self cs
  have l1 := clone_length_le (h := h) maxLen self
  split
  · rename_i heq; rw [heq] at i1; exact i1
  · rename_i h1 s q1
    rw [q1] at i1 l1
    have u1 := (clone_unseen i.1 q1).1
    have c1 : ∀ e ∈ li, ∀ c, e.2 = some c → c < h1.nodes.length :=
      fun e he c hx => Nat.lt_of_lt_of_le (hli e he c hx) l1
    have i2 := i1.labelled cls u1.lt li c1
    have l2 := labelled_length_le cls h1 s li
    split
    · rename_i heq; rw [heq] at i2; exact i2
    · rename_i h2 s' q2
      have ls' := labelled_result_lt cls i1 u1.lt li c1 q2
      rw [q2] at i2 l2
      have i3 := i2.clone maxLen next (cn.mono i.1 hn fun j hj => by
        have e1 := (clone_ext (n := h.nodes.length) (m := 0) maxLen h self (Nat.le_refl _)).nodes j hj
        have e2 := (labelled_ext (n := h.nodes.length) (m := 0) cls h1 s li l1 (Nat.zero_le _)).nodes j hj
        rw [q1] at e1
        rw [q2] at e2
        exact e2.trans e1)
      have l3 := clone_length_le (h := h2) maxLen next
      split
      · rename_i heq; rw [heq] at i3; exact i3
      · rename_i h3 r q3
        rw [q3] at i3 l3
        have u3 := clone_unseen i2.1 q3
        have c3 : ∀ e ∈ lo, ∀ c, e.2 = some c → c < h3.nodes.length :=
          fun e he c hx => Nat.lt_of_lt_of_le (hlo e he c hx)
            (Nat.le_trans l1 (Nat.le_trans l2 l3))
        have i4 := i3.labelled cls u3.1.lt lo c3
        have l4 := labelled_length_le cls h3 r lo
        split
        · rename_i heq; rw [heq] at i4; exact i4
        · rename_i h4 r' q4
          rw [setPredefinedInput_heap]
          cases hne : lo.isEmpty with
          | true =>
            simp only [Heap.labelled, hne, if_true, Prod.mk.injEq, Except.ok.injEq] at q4
            obtain ⟨rfl, rfl⟩ := q4
            obtain ⟨rs, p, hcov⟩ := clone_covers q3
            have hext := clone_ext (n := h2.nodes.length) (m := h2.dicts.length) maxLen h2 next
              (Nat.le_refl _)
            rw [q3] at hext
            obtain ⟨rs', p', hfr⟩ := (clone_fresh maxLen h2 h3 next r (Nat.le_refl _) q3).1
            have := p.det p'
            subst this
            exact Inv.setInputLoop s' (fun y => h2.nodes.length ≤ y) _ h3 r rs p hfr
              (fun x hx => Nat.ne_of_lt (Nat.lt_of_lt_of_le ls' (hfr x hx))) i3
              (Nat.lt_of_lt_of_le ls' l3) (upClosed_new i2.1 hext (Nat.le_refl _))
              (fun y hy hyl => .inr (hcov y hy hyl))
          | false =>
            obtain ⟨e1, e2, e3, e4⟩ := labelled_new i3 cls u3.1.lt lo hne c3 q4
            rw [q4] at i4 l4
            refine Inv.setInputLoop s' (fun y => y = r') _ h4 r' [r'] e4 (by simp) ?_ i4
              (Nat.lt_of_lt_of_le ls' (Nat.le_trans l3 l4)) ?_ (fun y hy _ => .inr (by simp [hy]))
            · intro x hx
              rw [List.mem_singleton.1 hx, e1]
              exact Nat.ne_of_lt (Nat.lt_of_lt_of_le ls' l3)
            · intro q n hn c hcm hcr
              subst hcr
              exact absurd hcm (e3 q n hn)

theorem Inv.pipeCallable {h : Heap P} (i : Inv own h) (cls : Cls P) (maxLen : Nat) (self : Addr)
    (f : Nat) (args : List Addr) (li lo : List (String × Option Addr)) (cs : Clean own h self)
    (ha : ∀ x ∈ args, x < h.nodes.length)
    (hli : ∀ e ∈ li, ∀ c, e.2 = some c → c < h.nodes.length)
    (hlo : ∀ e ∈ lo, ∀ c, e.2 = some c → c < h.nodes.length) :
    Inv own (pipeCallable cls maxLen h self f args li lo).1 := by
  simp only [Heap.pipeCallable]
  have i1 := i.clone maxLen self cs
  have l1 := clone_length_le (h := h) maxLen self
  split
  · rename_i heq; rw [heq] at i1; exact i1
  · rename_i h1 s q1
    rw [q1] at i1 l1
    replace l1 : h.nodes.length ≤ h1.nodes.length := l1
    have u1 := (clone_unseen i.1 q1).1
    have c1 : ∀ e ∈ li, ∀ c, e.2 = some c → c < h1.nodes.length :=
      fun e he c hx => Nat.lt_of_lt_of_le (hli e he c hx) l1
    have i2 := i1.labelled cls u1.lt li c1
    have l2 := labelled_length_le cls h1 s li
    split
    · rename_i heq; rw [heq] at i2; exact i2
    · rename_i h2 s' q2
      have ls' := labelled_result_lt cls i1 u1.lt li c1 q2
      rw [q2] at i2 l2
      replace l2 : h1.nodes.length ≤ h2.nodes.length := l2
      have i3 := i2.construct (cls.naive f) none [] (by simp)
      have l3 := construct_length h2 (cls.naive f) none []
      have i4 := i3.clone maxLen (Heap.construct h2 (cls.naive f) none []).2 (by
        have e : (Heap.construct h2 (cls.naive f) none []).1.nodes[(Heap.construct h2 (cls.naive f) none
            []).2]? = some ⟨cls.naive f, h2.counter, none, none, [], none, none, none, none, []⟩ := by
          simp [Heap.construct, alloc]
        intro q n u _
        cases u with
        | one u1 u2 => rw [e] at u1; cases u1; simp at u2
        | more u1 u2 _ => rw [e] at u1; cases u1; simp at u2)
      have l4 := clone_length_le (h := (Heap.construct h2 (cls.naive f) none []).1) maxLen
        (Heap.construct h2 (cls.naive f) none []).2
      split
      · rename_i heq
        have heq' : Heap.clone maxLen (Heap.construct h2 (cls.naive f) none []).1
          (Heap.construct h2 (cls.naive f) none []).2 = _ := heq
        rw [heq'] at i4; exact i4
      · rename_i h4 fn q4
        have q4' : Heap.clone maxLen (Heap.construct h2 (cls.naive f) none []).1
          (Heap.construct h2 (cls.naive f) none []).2 = _ := q4
        rw [q4'] at i4 l4
        have u4 := (clone_unseen i3.1 q4').1
        replace l4 : (Heap.construct h2 (cls.naive f) none []).1.nodes.length ≤ h4.nodes.length := l4
        have i5 := i4.construct cls.call (some fn) (s' :: args) (by
          intro x hx
          show x < h4.nodes.length
          simp only [Option.toList, List.cons_append, List.nil_append, List.mem_cons] at hx
          rcases hx with rfl | rfl | hx
          · exact u4.lt
          · omega
          · have := ha x hx; omega)
        have l5 := construct_length h4 cls.call (some fn) (s' :: args)
        refine i5.labelled cls (by rw [l5, construct_addr]; exact Nat.lt_succ_self _) lo ?_
        intro e he c hx
        have := hlo e he c hx
        replace l5 : (Heap.construct h4 cls.call (some fn) (s' :: args)).1.nodes.length =
          h4.nodes.length + 1 := l5
        show c < (Heap.construct h4 cls.call (some fn) (s' :: args)).1.nodes.length
        omega

/-- Assigning to attributes of a new clone. -/
theorem Inv.assignNew {h : Heap P} (i : Inv own h) {a : Addr} (u : NoRef h a) (al : a < h.nodes.length)
    (cs : List Addr) (f : Node P → Node P) (hcs : ∀ c ∈ cs, c < h.nodes.length ∧ c ≠ a)
    (hf : ∀ n, (f n).tag = n.tag ∧ (f n).deps = n.deps ∧ (f n).labels = n.labels ∧
      ∀ c ∈ children h (f n), c ∈ children h n ∨ c ∈ cs) :
    Inv own (modify (cs.foldl (fun h b => Heap.dependsOn h a b) h) a f) := by
  have i1 := i.foldDeps (a := a) cs (fun c hc => (hcs c hc).1)
  refine i1.assign (fun y => y = a) a cs f
    (fun c hc => by rw [foldDeps_length]; exact (hcs c hc).1) rfl (fun n => ?_) ?_ ?_
  · have hd : ∀ (bs : List Addr) (g : Heap P),
        (bs.foldl (fun h b => Heap.dependsOn h a b) g).dicts = g.dicts := by
      intro bs
      induction bs with
      | nil => intro g; rfl
      | cons b bs ih => intro g; exact ih _
    have hch : ∀ m : Node P, children (cs.foldl (fun h b => Heap.dependsOn h a b) h) m =
        children h m := fun m => children_congr m (fun d _ => by rw [hd])
    simp only [hch]
    exact hf n
  · intro q n hn c hcm e
    subst e
    exact absurd hcm ((NoRef.foldDeps cs u) q n hn)
  · intro y e _ c hcm
    subst e
    exact Has.foldDeps cs al (fun b hb => (hcs b hb).2) c (hcs c hcm).2 (.inl hcm)

/-- Registering dependencies changes nothing else. -/
theorem foldDeps_node {a : Addr} (bs : List Addr) : ∀ (g : Heap P) (n : Node P), g.nodes[a]? = some n →
    ∃ n', (bs.foldl (fun h b => Heap.dependsOn h a b) g).nodes[a]? = some n' ∧
      n'.pred = n.pred ∧ n'.selfRef = n.selfRef ∧ n'.args = n.args ∧ n'.cond = n.cond ∧
      n'.key = n.key ∧ n'.labels = n.labels := by
  induction bs with
  | nil => intro g n hn; exact ⟨n, hn, rfl, rfl, rfl, rfl, rfl, rfl⟩
  | cons b bs ih =>
    intro g n hn
    obtain ⟨n', e, r⟩ := ih (Heap.dependsOn g a b) { n with
      deps := n.deps ++ dependencies g b } (by simp [Heap.dependsOn, modify_nodes, hn])
    exact ⟨n', e, r⟩

/-- A method of an object that is its input. -/
theorem Inv.constructMethod {h : Heap P} (i : Inv own h) (tag : P) (s : Addr) (args : List Addr)
    (hs : s < h.nodes.length) (ha : ∀ x ∈ args, x < h.nodes.length) :
    Inv own (constructMethod h tag s args).1 := by
  have i1 := i.construct tag (some s) args (by
    intro x hx
    rcases List.mem_append.1 hx with hx | hx
    · rw [Option.mem_toList.1 hx |> Option.some.inj] at hs; exact hs
    · exact ha x hx)
  obtain ⟨n0, h0, _, e2, _⟩ := foldDeps_node (a := h.nodes.length) ((some s).toList ++ args)
    (alloc h ⟨tag, 0, none, some s, args, none, none, none, none, []⟩).1 _
    (by rw [alloc_nodes, if_pos rfl])
  replace h0 : (Heap.construct h tag (some s) args).1.nodes[h.nodes.length]? = some n0 := h0
  simp only [Heap.constructMethod]
  change Inv own (modify (Heap.construct h tag (some s) args).1 h.nodes.length fun n => { n with
    pred := some s })
  generalize (Heap.construct h tag (some s) args).1 = g at i1 h0
  obtain ⟨hc, S, hS⟩ := i1
  have hch : ∀ (q : Addr) n, (modify g h.nodes.length fun n => { n with pred := some s }).nodes[q]? =
      some n → ∃ m, g.nodes[q]? = some m ∧ n.deps = m.deps ∧ n.labels = m.labels ∧
        ∀ c, c ∈ children g n → c ∈ children g m := by
    intro q n hn
    rw [modify_nodes] at hn
    split at hn
    · rename_i e
      subst e
      rw [h0, Option.map_some] at hn
      cases hn
      refine ⟨n0, h0, rfl, rfl, fun c hcm => ?_⟩
      simp only [children, Option.toList, List.mem_append, List.mem_cons, List.not_mem_nil,
        or_false, e2] at hcm ⊢
      rcases hcm with ((((e | e) | e) | e) | e) | e
      · exact .inl (.inl (.inl (.inl (.inr e))))
      · exact .inl (.inl (.inl (.inl (.inr e))))
      · exact .inl (.inl (.inl (.inr e)))
      · exact .inl (.inl (.inr e))
      · exact .inl (.inr e)
      · exact .inr e
    · exact ⟨n, hn, rfl, rfl, fun c hcm => hcm⟩
  refine ⟨fun q n hn => ?_, S, fun q n hn => ?_⟩
  · obtain ⟨m, hm, r1, r2, r3⟩ := hch q n hn
    obtain ⟨q1, q2, q3⟩ := hc q m hm
    rw [children_modify, modify_length, r1, r2]
    exact ⟨fun c hcm => q1 c (r3 c hcm), q2, q3⟩
  · obtain ⟨m, hm, r1, r2, r3⟩ := hch q n hn
    obtain ⟨q1, q2⟩ := hS q m hm
    have ht : ∀ x, keyAt own (modify g h.nodes.length fun n => { n with pred := some s }) x =
        keyAt own g x := keyAt_modify _ _ _ (fun _ => rfl)
    rw [children_modify, r1]
    simp only [ht]
    exact ⟨fun c hcm => q1 c (r3 c hcm), q2⟩

theorem Inv.passArgs {h : Heap P} (i : Inv own h) (maxLen : Nat) (a : Addr) (args : List Addr)
    (ca : Clean own h a) (ha : ∀ x ∈ args, x < h.nodes.length) : Inv own (passArgs maxLen h a args).1 := by
  have i1 := i.clone maxLen a ca
  have l1 := clone_length_le (h := h) maxLen a
  simp only [Heap.passArgs]
  split
  · rename_i heq; rw [heq] at i1; exact i1
  · rename_i h1 r q1
    rw [q1] at i1 l1
    obtain ⟨u, e⟩ := clone_unseen i.1 q1
    refine i1.assignNew u.noRef u.lt args _ (fun c hc => ⟨Nat.lt_of_lt_of_le (ha c hc) l1, ?_⟩)
      fun n => ⟨rfl, rfl, rfl, fun c hcm => ?_⟩
    · rw [e]; exact Nat.ne_of_lt (ha c hc)
    · simp only [children, List.mem_append] at hcm ⊢
      rcases hcm with ((((e | e) | e) | e) | e) | e
      · exact .inl (.inl (.inl (.inl (.inl (.inl e)))))
      · exact .inl (.inl (.inl (.inl (.inl (.inr e)))))
      · exact .inr e
      · exact .inl (.inl (.inl (.inr e)))
      · exact .inl (.inl (.inr e))
      · exact .inl (.inr e)

theorem Inv.filterComp {h : Heap P} (i : Inv own h) (maxLen : Nat) (a cond : Addr)
    (ca : Clean own h a) (hcd : cond < h.nodes.length) : Inv own (Heap.filterComp maxLen h a cond).1 := by
  have i1 := i.clone maxLen a ca
  have l1 := clone_length_le (h := h) maxLen a
  simp only [Heap.filterComp]
  split
  · rename_i heq; rw [heq] at i1; exact i1
  · rename_i h1 r q1
    rw [q1] at i1 l1
    obtain ⟨u, e⟩ := clone_unseen i.1 q1
    refine i1.assignNew u.noRef u.lt [cond] _ (fun c hc => ?_)
      fun n => ⟨rfl, rfl, rfl, fun c hcm => ?_⟩
    · rw [List.mem_singleton.1 hc, e]
      exact ⟨Nat.lt_of_lt_of_le hcd l1, Nat.ne_of_lt hcd⟩
    · simp only [children, Option.toList, List.mem_append, List.mem_cons, List.not_mem_nil,
        or_false] at hcm ⊢
      rcases hcm with ((((e | e) | e) | e) | e) | e
      · exact .inl (.inl (.inl (.inl (.inl (.inl e)))))
      · exact .inl (.inl (.inl (.inl (.inl (.inr e)))))
      · exact .inl (.inl (.inl (.inl (.inr e))))
      · exact .inr e
      · exact .inl (.inl (.inr e))
      · exact .inl (.inr e)

theorem Inv.sort {h : Heap P} (i : Inv own h) (maxLen : Nat) (a : Addr) (f : P → P)
    (ca : Clean own h a) :
    Inv own (sort maxLen h a none f).1 := by
  have i1 := i.clone maxLen a ca
  simp only [Heap.sort]
  split
  · rename_i heq; rw [heq] at i1; exact i1
  · rename_i h1 r q1
    rw [q1] at i1
    obtain ⟨u, e⟩ := clone_unseen i.1 q1
    obtain ⟨hc, S, hS⟩ := i1
    let g : Node P → Node P := fun n => { n with
      tag := f n.tag
      key := none }
    have hch : ∀ n c, c ∈ children h1 (g n) → c ∈ children h1 n := by
      intro n c hcm
      simp only [g, children, List.mem_append, Option.toList, List.not_mem_nil, or_false] at hcm ⊢
      rcases hcm with (((e | e) | e) | e) | e
      · exact .inl (.inl (.inl (.inl (.inl e))))
      · exact .inl (.inl (.inl (.inl (.inr e))))
      · exact .inl (.inl (.inl (.inr e)))
      · exact .inl (.inl (.inr e))
      · exact .inr e
    have ht : ∀ x, x ≠ r → keyAt own (modify h1 r g) x = keyAt own h1 x := by
      intro x hx
      simp only [keyAt, modify_nodes]
      rw [if_neg (fun e => hx e.symm)]
    show Inv own (modify h1 r g)
    refine ⟨fun x m hm => ?_, S, fun x m hm => ?_⟩
    · rw [modify_nodes] at hm
      rw [children_modify, modify_length]
      split at hm
      · obtain ⟨n, hn, rfl⟩ := Option.map_eq_some_iff.1 hm
        obtain ⟨q1, q2, q3⟩ := hc x n hn
        exact ⟨fun c hcm => q1 c (hch n c hcm), q2, q3⟩
      · exact hc x m hm
    · have main : ∀ n, h1.nodes[x]? = some n →
          (∀ c ∈ children h1 n, S x (keyAt own (modify h1 r g) c) ∧ ∀ t, S c t → S x t) ∧
          (∀ t, S x t → ∃ d ∈ n.deps, keyAt own (modify h1 r g) d = t) := by
        intro n hn
        obtain ⟨r1, r2⟩ := hS x n hn
        refine ⟨fun c hcm => ?_, fun t ht' => ?_⟩
        · rw [ht c (fun e => u.noRef x n hn (e ▸ hcm))]
          exact r1 c hcm
        · obtain ⟨d, s1, s2⟩ := r2 t ht'
          exact ⟨d, s1, by rw [ht d (fun e => u.noDep x n hn (e ▸ s1))]; exact s2⟩
      rw [modify_nodes] at hm
      rw [children_modify]
      split at hm
      · obtain ⟨n, hn, rfl⟩ := Option.map_eq_some_iff.1 hm
        exact ⟨fun c hcm => (main n hn).1 c (hch n c hcm), (main n hn).2⟩
      · exact main m hm

/-- Setting the input of a conversion that has none. -/
theorem setPredefinedInput_first {h h' : Heap P} {maxLen : Nat} {g a r : Addr} {nd : Node P}
    (hg : h.nodes[g]? = some nd) (hp : nd.pred = none)
    (e : setPredefinedInput maxLen h g a = (h', .ok r)) :
    r = g ∧ (∀ x, x ≠ g → h'.nodes[x]? = h.nodes[x]?) ∧
      ∃ n, h'.nodes[g]? = some n ∧ n.pred = some a := by
  simp only [setPredefinedInput] at e
  cases hk : maxLen - 1 with
  | zero => rw [hk] at e; simp [setInputLoop] at e
  | succ k =>
    rw [hk] at e
    simp only [setInputLoop, hg, hp, Prod.mk.injEq, Except.ok.injEq] at e
    obtain ⟨rfl, rfl⟩ := e
    refine ⟨rfl, fun x hx => ?_, ?_⟩
    · simp only [dependsOn, modify_nodes]
      rw [if_neg (fun e => hx e.symm), if_neg (fun e => hx e.symm)]
    · simp only [dependsOn, modify_nodes, if_true, hg, Option.map_some]
      exact ⟨_, rfl, rfl⟩

theorem Inv.baseFilter {h : Heap P} (i : Inv own h) (cls : Cls P) (maxLen : Nat) (a cond : Addr)
    (ca : Clean own h a) (hoa : ∀ n, h.nodes[a]? = some n → own n.tag = false) (ha : a < h.nodes.length) (hcd : cond < h.nodes.length) :
    Inv own (baseFilter cls maxLen h a cond).1 := by
  simp only [Heap.baseFilter]
  have i1 := i.construct cls.bareItem none [] (by simp)
  have l1 := construct_length h cls.bareItem none []
  have i2 := i1.construct cls.genComp none [(Heap.construct h cls.bareItem none []).2] (by
    simp [l1, construct_addr])
  have l2 := construct_length (Heap.construct h cls.bareItem none []).1 cls.genComp none
    [(Heap.construct h cls.bareItem none []).2]
  have hg : (Heap.construct (Heap.construct h cls.bareItem none []).1 cls.genComp none
    [(Heap.construct h cls.bareItem none []).2]).2 = h.nodes.length + 1 := by
    rw [construct_addr, l1]
  have hnr : NoRef (Heap.construct (Heap.construct h cls.bareItem none []).1 cls.genComp none
      [(Heap.construct h cls.bareItem none []).2]).1 (h.nodes.length + 1) := by
    refine NoRef.foldDeps _ (NoRef.alloc (i1.1.noRef (by omega)) _ ?_)
    simp [children, construct_addr]
  have hnode : ∃ nd, (Heap.construct (Heap.construct h cls.bareItem none []).1 cls.genComp none
      [(Heap.construct h cls.bareItem none []).2]).1.nodes[h.nodes.length + 1]? = some nd ∧
      nd.pred = none := by
    simp [Heap.construct, alloc, Heap.dependsOn, modify_nodes]
  obtain ⟨nd, p1, p2⟩ := hnode
  have hpath : Path (Heap.construct (Heap.construct h cls.bareItem none []).1 cls.genComp none
      [(Heap.construct h cls.bareItem none []).2]).1 (h.nodes.length + 1) [h.nodes.length + 1] :=
    .last p1 p2
  have i3 := Inv.setInputLoop a (fun y => y = h.nodes.length + 1) (maxLen - 1) _ _ _ hpath (by simp)
    (by intro x hx; rw [List.mem_singleton.1 hx]; omega) i2 (by omega)
    (by intro q n hn c hcm e; subst e; exact absurd hcm (hnr q n hn))
    (fun y hy _ => .inr (by simp [hy]))
  rw [← setPredefinedInput_heap] at i3
  have e3 : h.nodes.length + 2 ≤ (setPredefinedInput maxLen (Heap.construct (Heap.construct h cls.bareItem
      none []).1 cls.genComp none [(Heap.construct h cls.bareItem none []).2]).1 (h.nodes.length + 1)
      a).1.nodes.length := by
    rw [setPredefinedInput_heap]
    have := (setInputLoop_ext (n := 0) (m := 0) a (maxLen - 1) _ _ _ hpath (by simp)).len
    omega
  split
  · rename_i heq
    rw [hg] at heq
    rw [heq] at i3
    exact i3
  · rename_i h3 g heq
    rw [hg] at heq
    rw [heq] at i3 e3
    replace e3 : h.nodes.length + 2 ≤ h3.nodes.length := e3
    obtain ⟨rfl, hold, ng, hng, hpg⟩ := setPredefinedInput_first p1 p2 heq
    have old : ∀ j, j < h.nodes.length → h3.nodes[j]? = h.nodes[j]? := by
      intro j hj
      rw [hold j (by omega)]
      exact ((construct_ext (n := h.nodes.length) (m := 0) h cls.bareItem none [] (Nat.le_refl _)).trans
        (construct_ext _ cls.genComp none _ (by rw [l1]; omega))).nodes j hj
    have cg : Clean own h3 (h.nodes.length + 1) := by
      intro q n u hq
      have ca3 := ca.mono i.1 ha old
      cases u with
      | one u1 u2 =>
        rw [hng] at u1
        cases u1
        rw [hpg] at u2
        cases u2
        exact hoa n (by rw [← old a ha]; exact hq)
      | more u1 u2 u3 =>
        rw [hng] at u1
        cases u1
        rw [hpg] at u2
        cases u2
        exact ca3 q n u3 hq
    exact i3.filterComp maxLen _ cond cg (by show cond < h3.nodes.length; omega)

theorem Inv.aggregate {h : Heap P} (i : Inv own h) (maxLen : Nat) (a reducer : Addr)
    (ca : Clean own h a) (hr : reducer < h.nodes.length) : Inv own (aggregate maxLen h a reducer).1 := by
  have i1 := i.clone maxLen a ca
  have l1 := clone_length_le (h := h) maxLen a
  simp only [Heap.aggregate]
  split
  · rename_i heq; rw [heq] at i1; exact i1
  · rename_i h1 r q1
    rw [q1] at i1 l1
    obtain ⟨u, e⟩ := clone_unseen i.1 q1
    have i2 := i1.dependsOn a (Nat.lt_of_lt_of_le hr l1)
    refine i2.assignNew (u.noRef.dependsOn a reducer) (by rw [dependsOn_length]; exact u.lt)
      [reducer] (fun n => { n with args := n.args ++ [reducer] }) (fun c hc => ?_)
      fun n => ⟨rfl, rfl, rfl, fun c hcm => ?_⟩
    · rw [List.mem_singleton.1 hc, e, dependsOn_length]
      exact ⟨Nat.lt_of_lt_of_le hr l1, Nat.ne_of_lt hr⟩
    · simp only [children, List.mem_append, List.mem_cons, List.not_mem_nil, or_false] at hcm ⊢
      rcases hcm with ((((e | e) | (e | e)) | e) | e) | e
      · exact .inl (.inl (.inl (.inl (.inl (.inl e)))))
      · exact .inl (.inl (.inl (.inl (.inl (.inr e)))))
      · exact .inl (.inl (.inl (.inl (.inr e))))
      · exact .inr e
      · exact .inl (.inl (.inl (.inr e)))
      · exact .inl (.inl (.inr e))
      · exact .inl (.inr e)

end Verif.Heap
