import Verif.Text.Spec
import Verif.Text.ParseCode
import Verif.Expr.Correct
import Verif.Expr.Class

/-!
# Text: code generation and the conditions for texts to be read back
-/

set_option autoImplicit false

namespace Verif.Text

open Verif.Expr

section
variable {Val : Type} {N : Names Val}

theorem attachTo_const {a r : PyExpr Val} {l : Lit Val} (h : attachTo N a r = .const l) : r = .const l := by
  unfold attachTo at h
  split at h
  · cases h
  · exact h

theorem fin_const {esc : Bool} {a r : PyExpr Val} {l : Lit Val} (h : fin N esc a r = .const l) : r = .const l := by
  unfold fin at h
  split at h
  · exact attachTo_const h
  · exact h

theorem wf_attachTo {a r : PyExpr Val} (ha : wf N a = true) (hr : wf N r = true) : wf N (attachTo N a r) = true := by
  unfold attachTo
  split
  · simp [wf, ha, hr]
  · exact hr

theorem wf_fin {esc : Bool} {a r : PyExpr Val} (ha : wf N a = true) (hr : wf N r = true) :
    wf N (fin N esc a r) = true := by
  unfold fin
  split
  · exact wf_attachTo ha hr
  · exact hr

theorem wrapItem_const {attr : Bool} {e i : PyExpr Val} {l : Lit Val} : wrapItem attr e i ≠ .const l := by
  intro h
  unfold wrapItem at h
  split at h
  · split at h
    · split at h <;> cases h
    · cases h
  · cases h

theorem wrapAll_const {attr : Bool} {l : Lit Val} : ∀ {is : List (PyExpr Val)} {e : PyExpr Val},
    wrapAll attr e is = .const l → is = [] ∧ e = .const l
  | [], _, h => ⟨rfl, h⟩
  | i :: is, e, h => by
    rw [wrapAll] at h
    exact absurd (wrapAll_const h).2 wrapItem_const

/-- A code which is a constant comes from a constant. -/
theorem konst_gen : ∀ (c : Conv Val) (esc : Bool) (e : PyExpr Val) (p : List Nat) (k : Option (Lit Val)),
    (∀ l, e = .const l → k = some l) → ∀ l, gen N esc c e p = .const l → konst c k = some l
  | .this, esc, e, p, k, hk, l, h => by
    rw [gen] at h
    exact hk l (fin_const h)
  | .naive l', esc, e, p, k, hk, l, h => by
    rw [gen] at h
    cases fin_const h
    rfl
  | .lookup attr s idx, esc, e, p, k, hk, l, h => by
    rw [gen] at h
    have := wrapAll_const (fin_const h)
    cases idx with
    | nil => exact konst_gen s false e _ k hk l this.2
    | cons => rw [genAll] at this; cases this.1
  | .mutCustom c, esc, e, p, k, hk, l, h => by
    rw [gen] at h
    exact konst_gen c false e _ k hk l (fin_const h)
  | .pipe a b, esc, e, p, k, hk, l, h => by
    rw [gen] at h
    exact konst_gen b false _ _ _ (konst_gen a esc e _ k hk) l (attachTo_const h)
  | .arg n, esc, e, p, k, hk, l, h => by rw [gen] at h; cases fin_const h
  | .label n, esc, e, p, k, hk, l, h => by rw [gen] at h; cases fin_const h
  | .lookupD _ _ _ _, esc, e, p, k, hk, l, h => by rw [gen] at h; cases fin_const h
  | .call _ _ _, esc, e, p, k, hk, l, h => by rw [gen] at h; cases fin_const h
  | .boolop _ _, esc, e, p, k, hk, l, h => by rw [gen] at h; cases fin_const h
  | .eqs _, esc, e, p, k, hk, l, h => by rw [gen] at h; cases fin_const h
  | .not _, esc, e, p, k, hk, l, h => by rw [gen] at h; cases fin_const h
  | .bin _ _ _, esc, e, p, k, hk, l, h => by rw [gen] at h; cases fin_const h
  | .neg _, esc, e, p, k, hk, l, h => by rw [gen] at h; cases fin_const h
  | .ifc _ _ _ _, esc, e, p, k, hk, l, h => by rw [gen] at h; cases fin_const h
  | .comp _ _ _ _ _ _, esc, e, p, k, hk, l, h => by
    rw [gen] at h
    have := fin_const h
    split at this <;> cases this
  | .coll _ _, esc, e, p, k, hk, l, h => by
    rw [gen] at h
    have := fin_const h
    split at this
    · cases this
    · split at this <;> cases this
  | .dict _, esc, e, p, k, hk, l, h => by
    rw [gen] at h
    have := fin_const h
    split at this <;> cases this
  | .opt _ _, esc, e, p, k, hk, l, h => by rw [gen] at h; cases fin_const h
  | .caching _ _ _ _, esc, e, p, k, hk, l, h => by rw [gen] at h; cases fin_const h
  | .tap _ _, esc, e, p, k, hk, l, h => by rw [gen] at h; cases fin_const h
  | .mutSetItem _ _, esc, e, p, k, hk, l, h => by rw [gen] at h; cases fin_const h
  | .mutSetAttr _ _, esc, e, p, k, hk, l, h => by rw [gen] at h; cases fin_const h
  | .mutDelItem _, esc, e, p, k, hk, l, h => by rw [gen] at h; cases fin_const h
  | .mutDelAttr _, esc, e, p, k, hk, l, h => by rw [gen] at h; cases fin_const h

theorem isNeg_of_konst {e : PyExpr Val} {k : Option (Lit Val)} (hk : ∀ l, e = .const l → k = some l)
    (h : litNeg k = false) : isNeg e = false := by
  cases e <;> try rfl
  rename_i l
  rw [hk l rfl] at h
  cases l with
  | int i => cases i <;> first | rfl | simp [litNeg] at h
  | _ => rfl

theorem isInt_of_konst {e : PyExpr Val} {k : Option (Lit Val)} (hk : ∀ l, e = .const l → k = some l)
    (h : litInt k = false) : isInt e = false := by
  cases e <;> try rfl
  rename_i l
  rw [hk l rfl] at h
  cases l <;> first | rfl | simp [litInt] at h

/-- One index which satisfies the conditions. -/
theorem wf_wrapItem {attr : Bool} {e i : PyExpr Val} {k j : Option (Lit Val)}
    (hk : ∀ l, e = .const l → k = some l) (hj : ∀ l, i = .const l → j = some l)
    (he : wf N e = true) (hi : wf N i = true)
    (h : if attr then (litInt k = true → (dotted j).isSome = false) ∧ dotOk j = true else litNeg k = false) :
    wf N (wrapItem attr e i) = true := by
  unfold wrapItem
  cases attr with
  | false =>
    simp only [Bool.false_eq_true, if_false] at h ⊢
    simp [wf, he, hi, isNeg_of_konst hk h]
  | true =>
    simp only [if_true] at h ⊢
    split
    · rename_i s
      have hs := hj _ rfl
      subst hs
      split
      · rename_i hv
        have hint : isInt e = false := by
          apply isInt_of_konst hk
          cases hx : litInt k with
          | false => rfl
          | true => have := h.1 hx; simp [dotted, hv] at this
        have hn : isName s = true := by
          have := h.2
          simpa [dotOk, dotted, hv] using this
        simp [wf, he, hint, hn]
      · simp [wf, he]
    · simp [wf, he, hi]

/-- The constants among several codes. -/
inductive Consts : List (PyExpr Val) → List (Option (Lit Val)) → Prop
  | nil : Consts [] []
  | cons {i : PyExpr Val} {j : Option (Lit Val)} {is : List (PyExpr Val)} {js : List (Option (Lit Val))}
      (h : ∀ l, i = .const l → j = some l) (hs : Consts is js) : Consts (i :: is) (j :: js)

theorem wf_wrapAll {attr : Bool} : ∀ {is : List (PyExpr Val)} {js : List (Option (Lit Val))} {e : PyExpr Val}
    {k : Option (Lit Val)}, (∀ l, e = .const l → k = some l) →
    Consts is js →
    wf N e = true → wfAll N is = true → lookOk attr k js = true → wf N (wrapAll attr e is) = true
  | [], _, _, _, _, _, he, _, _ => he
  | i :: is, [], _, _, _, hj, _, _, _ => by cases hj
  | i :: is, j :: js, e, k, hk, hj, he, hi, h => by
    cases hj with
    | cons hj hjs =>
    simp only [wfAll, Bool.and_eq_true] at hi
    rw [wrapAll]
    have hw : wf N (wrapItem attr e i) = true := by
      apply wf_wrapItem hk hj he hi.1
      cases attr with
      | false => simpa [lookOk] using h
      | true =>
        simp only [lookOk, if_true, Bool.and_eq_true, List.all_cons, Bool.not_eq_true'] at h
        simp only [if_true]
        refine ⟨fun hx => ?_, h.2.1⟩
        have := h.1
        rw [hx] at this
        simpa using this
    refine wf_wrapAll (k := none) (fun l hl => absurd hl wrapItem_const) hjs hw hi.2 ?_
    cases js with
    | nil => rfl
    | cons j' js =>
      cases attr with
      | false => rfl
      | true =>
        simp only [lookOk, if_true, Bool.and_eq_true, List.all_cons] at h ⊢
        exact ⟨rfl, h.2.2⟩

theorem forall2_konst (e : PyExpr Val) (k : Option (Lit Val)) (hk : ∀ l, e = .const l → k = some l) :
    ∀ (cs : List (Conv Val)) (p : List Nat) (n : Nat),
    Consts (genAll N cs e p n) (cs.map (fun i => konst i k))
  | [], _, _ => by simp only [genAll]; exact .nil
  | c :: cs, p, n => by
    simp only [genAll, List.map_cons]
    exact .cons (konst_gen c false e _ k hk) (forall2_konst e k hk cs p (n + 1))

theorem genAll_length (e : PyExpr Val) : ∀ (cs : List (Conv Val)) (p : List Nat) (n : Nat),
    (genAll N cs e p n).length = cs.length
  | [], _, _ => by simp only [genAll, List.length_nil]
  | c :: cs, p, n => by rw [genAll, List.length_cons, List.length_cons, genAll_length e cs p (n + 1)]

theorem wfAll_labelLines : ∀ {ls : List String} {es : List (PyExpr Val)},
    ls.all (fun l => plainText l.toList) = true → wfAll N es = true → wfAll N (labelLines ls es) = true
  | [], _, _, _ => by simp [labelLines, wfAll]
  | _ :: _, [], _, _ => by simp [labelLines, wfAll]
  | l :: ls, e :: es, hl, he => by
    simp only [List.all_cons, Bool.and_eq_true] at hl
    simp only [wfAll, Bool.and_eq_true] at he
    simp only [labelLines, wfAll, wf, Bool.and_eq_true]
    exact ⟨⟨hl.1, he.1⟩, wfAll_labelLines hl.2 he.2⟩

theorem wfAll_append : ∀ {as bs : List (PyExpr Val)}, wfAll N as = true → wfAll N bs = true →
    wfAll N (as ++ bs) = true
  | [], _, _, h => h
  | a :: as, bs, ha, hb => by
    simp only [wfAll, Bool.and_eq_true, List.cons_append] at ha ⊢
    exact ⟨ha.1, wfAll_append ha.2 hb⟩

theorem sortedArgs_all {as : List String} (h : as.all isName = true) : (sortedArgs as).all isName = true := by
  rw [List.all_eq_true] at h ⊢
  exact fun x hx => h x (mem_sortedArgs.mp hx)

theorem name_konst {x : String} {k : Option (Lit Val)} : ∀ l, PyExpr.name x = .const l → k = some l :=
  fun _ h => nomatch h

theorem wf_data : wf N (PyExpr.name "data_" : PyExpr Val) = true := by simp only [wf]; decide +kernel

theorem readableOpt_cons {c : Conv Val} (hc : c.isOpt = false) (cs : List (Conv Val)) :
    readableOpt (c :: cs) = (readable c none && readableOpt cs) := by
  cases c <;> first | rfl | simp [Conv.isOpt] at hc | simp [readableOpt]

section
variable {printable : Char → Bool} (hN : PyNames printable N)
include hN

set_option maxHeartbeats 1600000 in
mutual

/-- The code of a readable conversion satisfies the conditions for its text to be read back. -/
theorem wf_gen : ∀ (c : Conv Val) (esc : Bool) (e : PyExpr Val) (p : List Nat) (k : Option (Lit Val)),
    (∀ l, e = .const l → k = some l) → wf N e = true → readable c k = true → wf N (gen N esc c e p) = true
  | .this, esc, e, p, k, hk, he, h => by rw [gen]; exact wf_fin he he
  | .naive l, esc, e, p, k, hk, he, h => by rw [gen]; exact wf_fin he (by simp [wf])
  | .arg n, esc, e, p, k, hk, he, h => by
    rw [gen]
    simp only [readable] at h
    exact wf_fin he (by simp [wf, h])
  | .label n, esc, e, p, k, hk, he, h => by
    rw [gen]
    simp only [readable] at h
    exact wf_fin he (by simp [wf, Lbl.text, h])
  | .lookup attr s idx, esc, e, p, k, hk, he, h => by
    rw [gen]
    simp only [readable, Bool.and_eq_true] at h
    exact wf_fin he (wf_wrapAll (konst_gen s false e _ k hk) (forall2_konst e k hk idx _ 0)
      (wf_gen s false e _ k hk he h.1.1) (wf_genAll idx e _ 0 k hk he h.1.2) h.2)
  | .lookupD attr s idx d, esc, e, p, k, hk, he, h => by
    rw [gen]
    simp only [readable, Bool.and_eq_true] at h
    refine wf_fin he ?_
    simp only [wf, Bool.and_eq_true]
    have hobj : wf N (PyExpr.name "obj_" : PyExpr Val) = true := by simp only [wf]; decide +kernel
    refine ⟨⟨⟨⟨hN.helper _ _, wf_wrapAll (k := none) name_konst (forall2_konst _ none name_konst idx _ 0) ?_
      (wf_genAll idx _ _ 0 none name_konst hobj h.1.1.2) h.2⟩, wf_gen s false e _ k hk he h.1.1.1⟩, he⟩,
      wf_gen d false e _ k hk he h.1.2⟩
    split
    · simp only [wf]; decide +kernel
    · exact hobj
  | .call s as kw, esc, e, p, k, hk, he, h => by
    rw [gen]
    simp only [readable, Bool.and_eq_true, Bool.not_eq_true'] at h
    refine wf_fin he ?_
    simp only [wf, Bool.and_eq_true, Bool.not_eq_true', genAll_length]
    exact ⟨⟨⟨⟨⟨isNeg_of_konst (konst_gen s false e _ k hk) h.1.1.1.2, h.1.1.2⟩, h.1.2⟩, h.2⟩,
      wf_gen s false e _ k hk he h.1.1.1.1.1⟩, wf_genAll as e _ 0 k hk he h.1.1.1.1.2⟩
  | .boolop _ as, esc, e, p, k, hk, he, h => by
    rw [gen]
    simp only [readable, Bool.and_eq_true] at h
    refine wf_fin he ?_
    simp only [wf, Bool.and_eq_true, genAll_length]
    exact ⟨h.1, wf_genAll as e _ 0 k hk he h.2⟩
  | .eqs as, esc, e, p, k, hk, he, h => by
    rw [gen]
    simp only [readable, Bool.and_eq_true] at h
    refine wf_fin he ?_
    simp only [wf, Bool.and_eq_true, genAll_length]
    exact ⟨h.1, wf_genAll as e _ 0 k hk he h.2⟩
  | .not a, esc, e, p, k, hk, he, h => by
    rw [gen]
    simp only [readable] at h
    exact wf_fin he (by simp only [wf]; exact wf_gen a false e _ k hk he h)
  | .bin o a b, esc, e, p, k, hk, he, h => by
    rw [gen]
    refine wf_fin he ?_
    cases o with
    | index =>
      simp only [readable, Bool.and_eq_true, Bool.not_eq_true'] at h
      simp only [wf, Bool.and_eq_true, Bool.not_eq_true']
      exact ⟨⟨isNeg_of_konst (konst_gen a false e _ k hk) h.2, wf_gen a false e _ k hk he h.1.1⟩,
        wf_gen b false e _ k hk he h.1.2⟩
    | _ =>
      simp only [readable, Bool.and_eq_true] at h
      simp only [wf, Bool.and_eq_true]
      exact ⟨wf_gen a false e _ k hk he h.1, wf_gen b false e _ k hk he h.2⟩
  | .neg a, esc, e, p, k, hk, he, h => by
    rw [gen]
    simp only [readable] at h
    exact wf_fin he (by simp only [wf]; exact wf_gen a false e _ k hk he h)
  | .ifc c t f nc, esc, e, p, k, hk, he, h => by
    rw [gen]
    simp only [readable, Bool.and_eq_true] at h
    refine wf_fin he ?_
    simp only [wf, Bool.and_eq_true]
    have hg : wf N (PyExpr.getLabel (.cached p) : PyExpr Val) = true := by
      simp only [wf, Lbl.text]
      exact hN.cached p
    cases hs : (inputIsSimple (render N e) || nc) with
    | true =>
      simp only [if_true]
      exact ⟨⟨wf_gen t true e _ k hk he h.1.2, wf_gen c true e _ k hk he h.1.1⟩, wf_gen f true e _ k hk he h.2⟩
    | false =>
      simp only [Bool.false_eq_true, if_false]
      refine ⟨⟨wf_gen t true _ _ k (fun _ h => nomatch h) hg h.1.2,
        wf_gen c true _ _ k (fun _ h => nomatch h) ?_ h.1.1⟩, wf_gen f true _ _ k (fun _ h => nomatch h) hg h.2⟩
      simp only [wf, wfAll, Lbl.text, hN.cached p, he]
      rfl
  | .comp kd i v hc c sort, esc, e, p, k, hk, he, h => by
    rw [gen]
    simp only [readable, Bool.and_eq_true, Bool.not_eq_true'] at h
    refine wf_fin he ?_
    have hv : wf N (PyExpr.name (N.param (render N e)) : PyExpr Val) = true := by
      simp only [wf]
      exact hN.param _
    have hks : ¬ (kd = .set ∧ sort.isSome = true) := by
      rintro ⟨rfl, h2⟩
      simp [h2] at h
    rw [if_neg hks]
    simp only [wf, Bool.and_eq_true, Bool.not_eq_true']
    exact ⟨⟨⟨⟨⟨h.1.1.1, hN.param _⟩, wf_gen i false _ _ none name_konst hv h.1.1.2⟩,
      wf_gen v false _ _ none name_konst hv h.1.2⟩, he⟩, wf_gen c false _ _ none name_konst hv h.2⟩
  | .coll kd items, esc, e, p, k, hk, he, h => by
    rw [gen]
    refine wf_fin he ?_
    simp only [readable] at h
    split
    · rename_i ho
      rw [if_pos ho, Bool.and_eq_true] at h
      simp only [wf, Bool.and_eq_true]
      exact ⟨⟨⟨hN.helper _ _, wf_genOpt items _ 0 h.1⟩, he⟩, sortedArgs_all h.2⟩
    · rename_i ho
      rw [if_neg ho] at h
      simp only [Bool.and_eq_true, Bool.not_eq_true'] at h
      rw [if_neg (by rw [h.1.1]; exact Bool.false_ne_true)]
      have ha := wf_genAll items e (p ++ [1]) 0 k hk he h.2
      have hl := genAll_length (N := N) e items (p ++ [1]) 0
      simp only [wf, Bool.and_eq_true]
      refine ⟨?_, ha⟩
      cases items with
      | nil =>
        rw [genAll]
        cases kd <;> simp_all
      | cons c cs =>
        rw [genAll]
        cases kd <;> simp_all
  | .dict kvs, esc, e, p, k, hk, he, h => by
    rw [gen]
    refine wf_fin he ?_
    simp only [readable] at h
    split
    · rename_i ho
      rw [if_pos ho, Bool.and_eq_true] at h
      simp only [wf, Bool.and_eq_true]
      exact ⟨⟨⟨hN.helper _ _, wf_genOptPairs kvs _ 0 h.1⟩, he⟩, sortedArgs_all h.2⟩
    · rename_i ho
      rw [if_neg ho, Bool.and_eq_true] at h
      simp only [wf, Bool.and_eq_true, genAll_length]
      exact ⟨h.1, wf_genAll kvs e _ 0 k hk he h.2⟩
  | .opt _ _, esc, e, p, k, hk, he, h => by simp [readable] at h
  | .caching c n labels convs, esc, e, p, k, hk, he, h => by
    rw [gen]
    simp only [readable, Bool.and_eq_true] at h
    refine wf_fin he ?_
    have hg : wf N (PyExpr.getLabel (.user n) : PyExpr Val) = true := by
      simp only [wf, Lbl.text]
      exact h.1.1.2
    simp only [wf, Bool.and_eq_true, wfAll, Lbl.text]
    refine ⟨by simp, ⟨h.1.1.2, wf_gen c false e _ k hk he h.1.1.1⟩, ?_⟩
    refine wfAll_append (wfAll_labelLines h.1.2
      (wf_genAll convs _ _ 0 none (fun _ h => nomatch h) hg h.2)) ?_
    simp only [wfAll, hg]
    rfl
  | .tap o ms, esc, e, p, k, hk, he, h => by
    rw [gen]
    simp only [readable, Bool.and_eq_true] at h
    refine wf_fin he ?_
    simp only [wf, Bool.and_eq_true]
    exact ⟨⟨hN.helper _ _, wf_gen o false e _ k hk he h.1⟩, sortedArgs_all h.2⟩
  | .mutSetItem _ _, esc, e, p, k, hk, he, h => by simp [readable] at h
  | .mutSetAttr a b, esc, e, p, k, hk, he, h => by
    rw [gen]
    simp only [readable, Bool.and_eq_true] at h
    refine wf_fin he ?_
    simp only [wf, Bool.and_eq_true]
    exact ⟨⟨he, wf_gen a false e _ k hk he h.1⟩, wf_gen b false e _ k hk he h.2⟩
  | .mutDelItem a, esc, e, p, k, hk, he, h => by
    rw [gen]
    simp only [readable, Bool.and_eq_true, Bool.not_eq_true'] at h
    refine wf_fin he ?_
    simp only [wf, Bool.and_eq_true, Bool.not_eq_true']
    exact ⟨⟨isInt_of_konst hk h.2, he⟩, wf_gen a false e _ k hk he h.1⟩
  | .mutDelAttr a, esc, e, p, k, hk, he, h => by
    rw [gen]
    simp only [readable] at h
    refine wf_fin he ?_
    simp only [wf, Bool.and_eq_true]
    exact ⟨he, wf_gen a false e _ k hk he h⟩
  | .mutCustom c, esc, e, p, k, hk, he, h => by
    rw [gen]
    simp only [readable] at h
    exact wf_fin he (wf_gen c false e _ k hk he h)
  | .pipe a b, esc, e, p, k, hk, he, h => by
    rw [gen]
    simp only [readable, Bool.and_eq_true] at h
    have ha := wf_gen a esc e (p ++ [0]) k hk he h.1
    exact wf_attachTo ha (wf_gen b false _ _ _ (konst_gen a esc e _ k hk) ha h.2)

theorem wf_genAll : ∀ (cs : List (Conv Val)) (e : PyExpr Val) (p : List Nat) (n : Nat) (k : Option (Lit Val)),
    (∀ l, e = .const l → k = some l) → wf N e = true → readableAll cs k = true → wfAll N (genAll N cs e p n) = true
  | [], e, p, n, k, hk, he, h => by simp [genAll, wfAll]
  | c :: cs, e, p, n, k, hk, he, h => by
    simp only [readableAll, Bool.and_eq_true] at h
    simp only [genAll, wfAll, Bool.and_eq_true]
    exact ⟨wf_gen c false e _ k hk he h.1, wf_genAll cs e p (n + 1) k hk he h.2⟩

theorem wf_genOpt : ∀ (cs : List (Conv Val)) (p : List Nat) (n : Nat),
    readableOpt cs = true → wfAll N (genOpt N cs p n) = true
  | [], p, n, h => by simp [genOpt, wfAll]
  | c :: cs, p, n, h => by
    cases hc : c.isOpt with
    | true =>
      cases c <;> simp only [Conv.isOpt, Bool.false_eq_true] at hc
      rename_i c cond
      simp only [readableOpt, Bool.and_eq_true] at h
      simp only [genOpt, wfAll, Bool.and_eq_true]
      exact ⟨wf_gen cond false _ _ none name_konst wf_data h.1.2, wf_gen c false _ _ none name_konst wf_data h.1.1,
        wf_genOpt cs p (n + 1) h.2⟩
    | false =>
      rw [readableOpt_cons hc, Bool.and_eq_true] at h
      rw [genOpt_cons hc]
      simp only [wfAll, Bool.and_eq_true]
      exact ⟨by simp only [wf], wf_gen c false _ _ none name_konst wf_data h.1, wf_genOpt cs p (n + 1) h.2⟩

theorem wf_genOptPairs : ∀ (cs : List (Conv Val)) (p : List Nat) (n : Nat),
    readableOpt cs = true → wfAll N (genOptPairs N cs p n) = true
  | [], p, n, h => by simp [genOptPairs, wfAll]
  | [c], p, n, h => by simp [genOptPairs, wfAll]
  | k :: v :: rest, p, n, h => by
    cases hk : k.isOpt with
    | true =>
      cases k <;> simp only [Conv.isOpt, Bool.false_eq_true] at hk
      rename_i k ck
      cases hv : v.isOpt with
      | true =>
        cases v <;> simp only [Conv.isOpt, Bool.false_eq_true] at hv
        rename_i v cv
        simp only [readableOpt, Bool.and_eq_true] at h
        simp only [genOptPairs, wfAll, Bool.and_eq_true, wf]
        exact ⟨⟨by simp, wf_gen ck false _ _ none name_konst wf_data h.1.2,
          wf_gen cv false _ _ none name_konst wf_data h.2.1.2, trivial⟩, wf_gen k false _ _ none name_konst wf_data h.1.1,
          wf_gen v false _ _ none name_konst wf_data h.2.1.1, wf_genOptPairs rest p (n + 1) h.2.2⟩
      | false =>
        rw [readableOpt, readableOpt_cons hv] at h
        simp only [Bool.and_eq_true] at h
        rw [genOptPairs_left hv]
        simp only [wfAll, Bool.and_eq_true]
        exact ⟨wf_gen ck false _ _ none name_konst wf_data h.1.2, wf_gen k false _ _ none name_konst wf_data h.1.1,
          wf_gen v false _ _ none name_konst wf_data h.2.1, wf_genOptPairs rest p (n + 1) h.2.2⟩
    | false =>
      rw [readableOpt_cons hk, Bool.and_eq_true] at h
      cases hv : v.isOpt with
      | true =>
        cases v <;> simp only [Conv.isOpt, Bool.false_eq_true] at hv
        rename_i v cv
        simp only [readableOpt, Bool.and_eq_true] at h
        rw [genOptPairs_right hk]
        simp only [wfAll, Bool.and_eq_true]
        exact ⟨wf_gen cv false _ _ none name_konst wf_data h.2.1.2,
          wf_gen k false _ _ none name_konst wf_data h.1, wf_gen v false _ _ none name_konst wf_data h.2.1.1,
          wf_genOptPairs rest p (n + 1) h.2.2⟩
      | false =>
        rw [readableOpt_cons hv, Bool.and_eq_true] at h
        rw [genOptPairs_plain hk hv]
        simp only [wfAll, Bool.and_eq_true]
        exact ⟨by simp only [wf], wf_gen k false _ _ none name_konst wf_data h.1,
          wf_gen v false _ _ none name_konst wf_data h.2.1, wf_genOptPairs rest p (n + 1) h.2.2⟩

end

end

/-! ## The described tree -/

theorem attachTo_name {x : String} (hx : wordy x = true) (r : PyExpr Val) : attachTo N (.name x) r = r := by
  unfold attachTo
  rw [render, simple_of_word hx]
  rfl

theorem fin_name {esc : Bool} {x : String} (hx : wordy x = true) (r : PyExpr Val) : fin N esc (.name x) r = r := by
  unfold fin
  split
  · exact attachTo_name hx r
  · rfl

theorem wordy_of_name {x : String} (h : isName x = true) : wordy x = true := by
  simp only [isName, isNameTok, Bool.and_eq_true] at h
  have h := h.1.1
  unfold isWordText at h
  unfold wordy
  split at h
  · cases h
  · rename_i c cs hx
    rw [hx, List.all_cons]
    simp only [Bool.and_eq_true, List.all_eq_true] at h ⊢
    refine ⟨?_, fun d hd => ?_⟩
    · have := h.1
      simp only [idStart, isWord, Char.isAlphanum, Bool.or_eq_true] at this ⊢
      rcases this with h | h
      · exact .inl (.inl (.inl h))
      · exact .inl (.inr h)
    · have := h.2 d hd
      simp only [idChar, isWord, Bool.or_eq_true] at this ⊢
      exact .inl this

/-- The constant which is a code. -/
def constOf : PyExpr Val → Option (Lit Val)
  | .const l => some l
  | _ => none

theorem tree_wrapAll (attr : Bool) : ∀ (is : List (PyExpr Val)) (e : PyExpr Val),
    tree N (wrapAll attr e is) = lookups attr (tree N e) ((is.map (fun i => dotted (constOf i))).zip (treeAll N is))
  | [], e => rfl
  | i :: is, e => by
    rw [wrapAll, tree_wrapAll attr is]
    simp only [treeAll, List.map_cons, List.zip_cons_cons, lookups]
    congr 1
    unfold wrapItem
    cases attr with
    | false => rfl
    | true =>
      simp only [if_true]
      split
      · rename_i s
        simp only [constOf, dotted]
        split <;> rfl
      · rename_i hn
        have : dotted (constOf i) = none := by
          cases i <;> first | rfl | skip
          rename_i l
          cases l <;> first | rfl | exact absurd rfl (hn _)
        rw [this]
        rfl

theorem constOf_gen : ∀ (c : Conv Val), direct c = true → ∀ (x : String), wordy x = true → ∀ (p : List Nat),
    constOf (gen N false c (.name x) p) = konst c none
  | .this, h, x, hx, p => by rw [gen]; rfl
  | .naive l, h, x, hx, p => by rw [gen]; rfl
  | .lookup attr s [], h, x, hx, p => by
    rw [gen, genAll]
    simp only [direct, Bool.and_eq_true] at h
    exact constOf_gen s h.1 x hx _
  | .lookup attr s (i :: is), h, x, hx, p => by
    rw [gen, genAll]
    have : ∀ l, wrapAll attr (gen N false s (PyExpr.name x) (p ++ [0])) (gen N false i (PyExpr.name x) (p ++ [1] ++ [0]) ::
        genAll N is (PyExpr.name x) (p ++ [1]) (0 + 1)) ≠ .const l := fun l hl => by
      cases (wrapAll_const hl).1
    unfold fin
    simp only [Bool.false_eq_true, if_false, konst]
    generalize wrapAll attr _ _ = r at this
    cases r <;> first | rfl | exact absurd rfl (this _)
  | .arg _, h, x, hx, p => by rw [gen]; rfl
  | .label _, h, x, hx, p => by rw [gen]; rfl
  | .call _ _ _, h, x, hx, p => by rw [gen]; rfl
  | .boolop _ _, h, x, hx, p => by rw [gen]; rfl
  | .eqs _, h, x, hx, p => by rw [gen]; rfl
  | .not _, h, x, hx, p => by rw [gen]; rfl
  | .bin _ _ _, h, x, hx, p => by rw [gen]; rfl
  | .neg _, h, x, hx, p => by rw [gen]; rfl
  | .ifc _ _ _ _, h, x, hx, p => by rw [gen]; rfl
  | .comp _ _ _ _ _ _, h, x, hx, p => by
    rw [gen]
    unfold fin
    simp only [Bool.false_eq_true, if_false, konst]
    split <;> rfl
  | .coll _ _, h, x, hx, p => by
    rw [gen]
    unfold fin
    simp only [Bool.false_eq_true, if_false, konst]
    split
    · rfl
    · split <;> rfl
  | .dict _, h, x, hx, p => by
    rw [gen]
    unfold fin
    simp only [Bool.false_eq_true, if_false, konst]
    split <;> rfl
  | .lookupD _ _ _ _, h, _, _, _ => by simp [direct] at h
  | .opt _ _, h, _, _, _ => by simp [direct] at h
  | .caching _ _ _ _, h, _, _, _ => by simp [direct] at h
  | .tap _ _, h, _, _, _ => by simp [direct] at h
  | .mutSetItem _ _, h, _, _, _ => by simp [direct] at h
  | .mutSetAttr _ _, h, _, _, _ => by simp [direct] at h
  | .mutDelItem _, h, _, _, _ => by simp [direct] at h
  | .mutDelAttr _, h, _, _, _ => by simp [direct] at h
  | .mutCustom _, h, _, _, _ => by simp [direct] at h
  | .pipe _ _, h, _, _, _ => by simp [direct] at h

theorem constOf_genAll : ∀ (cs : List (Conv Val)), directAll cs = true → ∀ (x : String), wordy x = true →
    ∀ (p : List Nat) (n : Nat),
    (genAll N cs (.name x) p n).map (fun i => dotted (constOf i)) = cs.map (fun i => dotted (konst i none))
  | [], _, _, _, _, _ => by simp only [genAll, List.map_nil]
  | c :: cs, h, x, hx, p, n => by
    simp only [directAll, Bool.and_eq_true] at h
    simp only [genAll, List.map_cons]
    rw [constOf_gen c h.1 x hx, constOf_genAll cs h.2 x hx p (n + 1)]

theorem direct_notOpt : ∀ {cs : List (Conv Val)}, directAll cs = true → cs.any Conv.isOpt = false
  | [], _ => rfl
  | c :: cs, h => by
    simp only [directAll, Bool.and_eq_true] at h
    rw [List.any_cons, direct_notOpt h.2]
    cases c <;> first | rfl | (simp [direct] at h)

section
variable {printable : Char → Bool} (hN : PyNames printable N)
include hN

set_option maxHeartbeats 1600000 in
mutual

/-- The code of a conversion of a variable has the described tree. -/
theorem tree_gen : ∀ (c : Conv Val) (k : Option (Lit Val)), direct c = true → readable c k = true → ∀ (esc : Bool)
    (x : String), wordy x = true → ∀ (p : List Nat), tree N (gen N esc c (.name x) p) = describe N c x
  | .this, k, h, hr, esc, x, hx, p => by rw [gen, fin_name hx]; rfl
  | .naive l, k, h, hr, esc, x, hx, p => by rw [gen, fin_name hx]; rfl
  | .arg n, k, h, hr, esc, x, hx, p => by rw [gen, fin_name hx]; rfl
  | .label n, k, h, hr, esc, x, hx, p => by rw [gen, fin_name hx]; rfl
  | .lookup attr s idx, k, h, hr, esc, x, hx, p => by
    rw [gen, fin_name hx, tree_wrapAll]
    simp only [direct, Bool.and_eq_true] at h
    simp only [readable, Bool.and_eq_true] at hr
    rw [constOf_genAll idx h.2 x hx, tree_gen s k h.1 hr.1.1 false x hx, tree_genAll idx k h.2 hr.1.2 x hx]
    rfl
  | .call s as kw, k, h, hr, esc, x, hx, p => by
    rw [gen, fin_name hx]
    simp only [direct, Bool.and_eq_true] at h
    simp only [readable, Bool.and_eq_true] at hr
    simp only [tree, describe]
    rw [tree_gen s k h.1 hr.1.1.1.1.1 false x hx, tree_genAll as k h.2 hr.1.1.1.1.2 x hx]
  | .boolop _ as, k, h, hr, esc, x, hx, p => by
    rw [gen, fin_name hx]
    simp only [direct] at h
    simp only [readable, Bool.and_eq_true] at hr
    simp only [tree, describe]
    rw [tree_genAll as k h hr.2 x hx]
  | .eqs as, k, h, hr, esc, x, hx, p => by
    rw [gen, fin_name hx]
    simp only [direct] at h
    simp only [readable, Bool.and_eq_true] at hr
    simp only [tree, describe]
    rw [tree_genAll as k h hr.2 x hx]
    rfl
  | .not a, k, h, hr, esc, x, hx, p => by
    rw [gen, fin_name hx]
    simp only [direct] at h
    simp only [readable] at hr
    simp only [tree, describe]
    rw [tree_gen a k h hr false x hx]
  | .bin o a b, k, h, hr, esc, x, hx, p => by
    rw [gen, fin_name hx]
    simp only [direct, Bool.and_eq_true] at h
    have hr' : readable a k = true ∧ readable b k = true := by
      cases o <;> simp only [readable, Bool.and_eq_true] at hr <;> first | exact hr | exact hr.1
    simp only [tree, describe]
    rw [tree_gen a k h.1 hr'.1 false x hx, tree_gen b k h.2 hr'.2 false x hx]
  | .neg a, k, h, hr, esc, x, hx, p => by
    rw [gen, fin_name hx]
    simp only [direct] at h
    simp only [readable] at hr
    simp only [tree, describe]
    rw [tree_gen a k h hr false x hx]
  | .ifc c t f nc, k, h, hr, esc, x, hx, p => by
    rw [gen, fin_name hx]
    simp only [direct, Bool.and_eq_true] at h
    simp only [readable, Bool.and_eq_true] at hr
    have hs : (inputIsSimple (render N (PyExpr.name x : PyExpr Val)) || nc) = true := by
      rw [render, simple_of_word hx]
      rfl
    simp only [hs, if_true, tree, describe]
    rw [tree_gen c k h.1.1 hr.1.1 true x hx, tree_gen t k h.1.2 hr.1.2 true x hx, tree_gen f k h.2 hr.2 true x hx]
  | .comp kd i v hc c sort, k, h, hr, esc, x, hx, p => by
    rw [gen, fin_name hx]
    simp only [direct, Bool.and_eq_true] at h
    simp only [readable, Bool.and_eq_true, Bool.not_eq_true'] at hr
    have hks : ¬ (kd = .set ∧ sort.isSome = true) := by
      rintro ⟨rfl, h2⟩
      simp [h2] at hr
    have hv : wordy (N.param x) = true := wordy_of_name (hN.param x)
    rw [if_neg hks]
    have e1 := tree_gen i none h.1.1 hr.1.1.2 false (N.param x) hv (p ++ [0])
    have e2 := tree_gen v none h.1.2 hr.1.2 false (N.param x) hv (p ++ [1])
    have e3 := tree_gen c none h.2 hr.2 false (N.param x) hv (p ++ [2])
    simp only [tree, describe, render, e1, e2, e3]
    cases sort with
    | none => cases kd <;> rfl
    | some s =>
      obtain ⟨key, rev⟩ := s
      cases kd <;> rfl
  | .coll kd items, k, h, hr, esc, x, hx, p => by
    rw [gen, fin_name hx]
    simp only [direct] at h
    have ho := direct_notOpt h
    simp only [readable, ho, Bool.false_eq_true, if_false, Bool.and_eq_true, Bool.not_eq_true'] at hr
    rw [if_neg (by rw [ho]; exact Bool.false_ne_true), if_neg (by rw [hr.1.1]; exact Bool.false_ne_true)]
    simp only [describe]
    rw [← tree_genAll items k h hr.2 x hx (p ++ [1]) 0]
    cases items with
    | nil => cases kd <;> first | rfl | (simp [tree, treeAll, genAll] at hr ⊢)
    | cons c cs => cases kd <;> first | rfl | (simp [tree, treeAll, genAll] at hr ⊢)
  | .dict kvs, k, h, hr, esc, x, hx, p => by
    rw [gen, fin_name hx]
    simp only [direct] at h
    have ho := direct_notOpt h
    simp only [readable, ho, Bool.false_eq_true, if_false, Bool.and_eq_true] at hr
    rw [if_neg (by rw [ho]; exact Bool.false_ne_true)]
    simp only [describe, tree]
    rw [tree_genAll kvs k h hr.2 x hx]
  | .lookupD _ _ _ _, k, h, _, _, _, _, _ => by simp [direct] at h
  | .opt _ _, k, h, _, _, _, _, _ => by simp [direct] at h
  | .caching _ _ _ _, k, h, _, _, _, _, _ => by simp [direct] at h
  | .tap _ _, k, h, _, _, _, _, _ => by simp [direct] at h
  | .mutSetItem _ _, k, h, _, _, _, _, _ => by simp [direct] at h
  | .mutSetAttr _ _, k, h, _, _, _, _, _ => by simp [direct] at h
  | .mutDelItem _, k, h, _, _, _, _, _ => by simp [direct] at h
  | .mutDelAttr _, k, h, _, _, _, _, _ => by simp [direct] at h
  | .mutCustom _, k, h, _, _, _, _, _ => by simp [direct] at h
  | .pipe _ _, k, h, _, _, _, _, _ => by simp [direct] at h

theorem tree_genAll : ∀ (cs : List (Conv Val)) (k : Option (Lit Val)), directAll cs = true →
    readableAll cs k = true → ∀ (x : String), wordy x = true → ∀ (p : List Nat) (n : Nat),
    treeAll N (genAll N cs (.name x) p n) = describeAll N cs x
  | [], _, _, _, _, _, _, _ => by simp only [genAll, treeAll, describeAll]
  | c :: cs, k, h, hr, x, hx, p, n => by
    simp only [directAll, Bool.and_eq_true] at h
    simp only [readableAll, Bool.and_eq_true] at hr
    simp only [genAll, treeAll, describeAll]
    rw [tree_gen c k h.1 hr.1 false x hx, tree_genAll cs k h.2 hr.2 x hx]

end

end

end

end Verif.Text
