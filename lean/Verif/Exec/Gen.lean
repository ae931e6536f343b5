import Verif.Exec.Load

/-!
# Exec: names in generated code

`own_gen`: the names in the code of a conversion do not get in each other's way.
-/

set_option autoImplicit false

namespace Verif.Exec

open Verif.Expr Verif.Text

section
variable {Val : Type} {N : Names Val} {G : Globals Val} {printable : Char → Bool}

theorem Fit.mono {as bs ls ms : List String} {vs ws : List Val} (h : Fit N G as ls vs) (ha : ∀ a ∈ bs, a ∈ as)
    (hl : ∀ l ∈ ms, l ∈ ls) (hv : ∀ v ∈ ws, v ∈ vs) : Fit N G bs ms ws :=
  ⟨fun a h1 => h.args a (ha a h1), fun l h1 => h.labels l (hl l h1), fun v h1 => h.objs v (hv v h1)⟩

theorem own_attachTo {a r : PyExpr Val} (ha : Own N G a) (hr : Own N G r) : Own N G (attachTo N a r) := by
  unfold attachTo
  split
  · simp only [Own]
    exact ⟨ha, hr⟩
  · exact hr

theorem own_fin {esc : Bool} {a r : PyExpr Val} (ha : Own N G a) (hr : Own N G r) : Own N G (fin N esc a r) := by
  unfold fin
  split
  · exact own_attachTo ha hr
  · exact hr

theorem litOk_of (hN : PyNames printable N) {l : Lit Val} (h : ∀ v ∈ objOf l, G (N.const (.obj v)) = some (.val v)) :
    litOk N G l := by
  cases l with
  | obj v =>
    have := hN.obj v
    simp only [isName, Bool.and_eq_true, Bool.not_eq_true'] at this
    exact ⟨h v (by simp [objOf]), this.2⟩
  | _ => trivial

theorem own_wrapItem {attr : Bool} {e i : PyExpr Val} (he : Own N G e) (hi : Own N G i) :
    Own N G (wrapItem attr e i) := by
  unfold wrapItem
  split
  · split
    · split
      · simp only [Own]; exact he
      · simp only [Own]; exact ⟨he, trivial⟩
    · simp only [Own]; exact ⟨he, hi⟩
  · simp only [Own]; exact ⟨he, hi⟩

theorem own_wrapAll {attr : Bool} : ∀ (is : List (PyExpr Val)) (e : PyExpr Val), Own N G e → OwnAll N G is →
    Own N G (wrapAll attr e is)
  | [], e, he, _ => by rw [wrapAll]; exact he
  | i :: is, e, he, hi => by
    simp only [OwnAll] at hi
    rw [wrapAll]
    exact own_wrapAll is _ (own_wrapItem he hi.1) hi.2

theorem ownAll_append : ∀ {as bs : List (PyExpr Val)}, OwnAll N G as → OwnAll N G bs → OwnAll N G (as ++ bs)
  | [], _, _, hb => hb
  | _ :: _, _, ha, hb => by
    simp only [OwnAll] at ha
    simp only [List.cons_append, OwnAll]
    exact ⟨ha.1, ownAll_append ha.2 hb⟩

theorem ownAll_labelLines : ∀ {ls : List String} {es : List (PyExpr Val)}, (∀ l ∈ ls, ∀ p, N.cached p ≠ l) →
    OwnAll N G es → OwnAll N G (labelLines ls es)
  | [], _, _, _ => by simp [labelLines, OwnAll]
  | _ :: _, [], _, _ => by simp [labelLines, OwnAll]
  | l :: ls, e :: es, hl, he => by
    simp only [OwnAll] at he
    simp only [labelLines, OwnAll, Own, labelOk]
    exact ⟨⟨hl l List.mem_cons_self, he.1⟩, ownAll_labelLines (fun m hm => hl m (List.mem_cons_of_mem _ hm)) he.2⟩

theorem eraseDups_nodup : ∀ (n : Nat) (l : List String), l.length ≤ n → l.eraseDups.Nodup
  | 0, l, h => by
    cases l with
    | nil => simp
    | cons a l => simp at h
  | n + 1, l, h => by
    cases l with
    | nil => simp
    | cons a l =>
      rw [List.eraseDups_cons]
      refine List.nodup_cons.mpr ⟨?_, eraseDups_nodup n _ ?_⟩
      · intro hm
        rw [List.mem_eraseDups, List.mem_filter] at hm
        simp at hm
      · have := List.length_filter_le (fun b => !b == a) l
        simp only [List.length_cons] at h
        omega

theorem sortedArgs_nodup (as : List String) : (sortedArgs as).Nodup :=
  (List.mergeSort_perm _ _).nodup_iff.mpr (eraseDups_nodup _ as (Nat.le_refl _))

theorem itemsOk_genOpt {items : List (Conv Val)} (h : items.any Conv.isOpt = true) {p : List Nat} {n : Nat}
    {as : List String} : itemsOk 2 (optFlags items) (genOpt N items p n) (sortedArgs as) := by
  cases items with
  | nil => simp at h
  | cons c cs =>
    refine ⟨by simp [optFlags], ?_, sortedArgs_nodup _⟩
    cases c <;> simp [genOpt]

theorem itemsOk_genOptPairs {kvs : List (Conv Val)} (h : kvs.any Conv.isOpt = true) (hl : kvs.length % 2 = 0)
    {p : List Nat} {n : Nat} {as : List String} :
    itemsOk 3 (optPairFlags kvs) (genOptPairs N kvs p n) (sortedArgs as) := by
  match kvs, h, hl with
  | k :: v :: rest, _, _ =>
    refine ⟨by simp [optPairFlags], ?_, sortedArgs_nodup _⟩
    cases k <;> cases v <;> simp [genOptPairs]

theorem argsOk_sorted {as : List String} (h : argsOk G as) : argsOk G (sortedArgs as) :=
  fun a ha => h a (mem_sortedArgs.mp ha)

theorem ownStmts_cons {e : PyExpr Val} (es : List (PyExpr Val)) (he : Own N G e) (hs : OwnStmts N G es) :
    OwnStmts N G (e :: es) := by
  cases e <;> first | (simp [Own] at he; done) | (simp only [OwnStmts]; exact ⟨he, hs⟩)

theorem own_data (hM : Module G) : Own N G (.name "data_" : PyExpr Val) := by
  simp only [Own]
  exact ⟨hM.data, by decide⟩

/-- Splits what is known of the names of a conversion. -/
local macro "fit" h:term : term =>
  `(Fit.mono $h (by intro a ha; simp [Conv.args, argsAll, ha]) (by intro l hl; simp [labelsOf, labelsAll, hl])
    (by intro v hv; simp [objsOf, objsAll, hv]))

section
variable (hN : PyNames printable N) (hM : Module G) (hp : ∀ t, varName G (N.param t))
include hN hM hp

set_option maxHeartbeats 1600000 in
mutual

theorem own_gen : ∀ (c : Conv Val) (esc : Bool) (e : PyExpr Val) (p : List Nat) (k : Option (Lit Val)), Own N G e →
    readable c k = true → runnable c = true → Fit N G c.args (labelsOf c) (objsOf c) → Own N G (gen N esc c e p)
  | .this, esc, e, p, k, he, h, hr, hf => by rw [gen]; exact own_fin he he
  | .naive l, esc, e, p, k, he, h, hr, hf => by rw [gen]; exact own_fin he (by simp only [Own]; exact litOk_of hN (fun v hv => hf.objs v (by simpa [objsOf] using hv)))
  | .arg n, esc, e, p, k, he, h, hr, hf => by
    rw [gen]
    exact own_fin he (by simp only [Own]; exact (hf.args n (by simp [Conv.args])).1)
  | .label n, esc, e, p, k, he, h, hr, hf => by
    rw [gen]
    exact own_fin he (by simp only [Own, labelOk]; exact hf.labels n (by simp [labelsOf]))
  | .lookup attr s idx, esc, e, p, k, he, h, hr, hf => by
    rw [gen]
    simp only [readable, Bool.and_eq_true] at h
    simp only [runnable, Bool.and_eq_true] at hr
    exact own_fin he (own_wrapAll _ _ (own_gen s false e _ k he h.1.1 hr.1 (fit hf))
      (own_genAll idx e _ 0 k he h.1.2 hr.2 (fit hf)))
  | .lookupD attr s idx d, esc, e, p, k, he, h, hr, hf => by
    rw [gen]
    simp only [readable, Bool.and_eq_true] at h
    simp only [runnable, Bool.and_eq_true] at hr
    refine own_fin he ?_
    have ho : Own N G (.name "obj_" : PyExpr Val) := by
      simp only [Own]
      exact ⟨hM.input, by decide⟩
    simp only [Own]
    refine ⟨own_wrapAll _ _ ?_ (own_genAll idx _ _ 0 none ho h.1.1.2 hr.1.2 (fit hf)),
      own_gen s false e _ k he h.1.1.1 hr.1.1 (fit hf), he, own_gen d false e _ k he h.1.2 hr.2 (fit hf)⟩
    split
    · simp only [Own]
      exact ⟨hM.self, by decide⟩
    · exact ho
  | .call s as kw, esc, e, p, k, he, h, hr, hf => by
    rw [gen]
    simp only [readable, Bool.and_eq_true] at h
    simp only [runnable, Bool.and_eq_true] at hr
    refine own_fin he ?_
    simp only [Own]
    exact ⟨own_gen s false e _ k he h.1.1.1.1.1 hr.1 (fit hf), own_genAll as e _ 0 k he h.1.1.1.1.2 hr.2 (fit hf)⟩
  | .boolop _ as, esc, e, p, k, he, h, hr, hf => by
    rw [gen]
    simp only [readable, Bool.and_eq_true] at h
    simp only [runnable] at hr
    refine own_fin he ?_
    simp only [Own]
    exact own_genAll as e _ 0 k he h.2 hr (fit hf)
  | .eqs as, esc, e, p, k, he, h, hr, hf => by
    rw [gen]
    simp only [readable, Bool.and_eq_true, decide_eq_true_eq] at h
    simp only [runnable] at hr
    refine own_fin he ?_
    simp only [Own]
    refine ⟨fun h0 => ?_, own_genAll as e _ 0 k he h.2 hr (fit hf)⟩
    have := genAll_length (N := N) e as (p ++ [1]) 0
    rw [h0] at this
    simp only [List.length_nil] at this
    omega
  | .not a, esc, e, p, k, he, h, hr, hf => by
    rw [gen]
    simp only [readable] at h
    simp only [runnable] at hr
    exact own_fin he (by simp only [Own]; exact own_gen a false e _ k he h hr (fit hf))
  | .bin o a b, esc, e, p, k, he, h, hr, hf => by
    rw [gen]
    simp only [runnable, Bool.and_eq_true] at hr
    refine own_fin he ?_
    simp only [Own]
    have h' : readable a k = true ∧ readable b k = true := by
      cases o <;> simp only [readable, Bool.and_eq_true] at h <;> first | exact h | exact h.1
    exact ⟨own_gen a false e _ k he h'.1 hr.1 (fit hf), own_gen b false e _ k he h'.2 hr.2 (fit hf)⟩
  | .neg a, esc, e, p, k, he, h, hr, hf => by
    rw [gen]
    simp only [readable] at h
    simp only [runnable] at hr
    exact own_fin he (by simp only [Own]; exact own_gen a false e _ k he h hr (fit hf))
  | .ifc c t f nc, esc, e, p, k, he, h, hr, hf => by
    rw [gen]
    simp only [readable, Bool.and_eq_true] at h
    simp only [runnable, Bool.and_eq_true] at hr
    refine own_fin he ?_
    simp only [Own]
    have hg : Own N G (.getLabel (.cached p) : PyExpr Val) := by simp [Own, labelOk]
    cases hs : (inputIsSimple (render N e) || nc) with
    | true =>
      simp only [if_true]
      exact ⟨own_gen t true e _ k he h.1.2 hr.1.2 (fit hf), own_gen c true e _ k he h.1.1 hr.1.1 (fit hf),
        own_gen f true e _ k he h.2 hr.2 (fit hf)⟩
    | false =>
      simp only [Bool.false_eq_true, if_false]
      refine ⟨own_gen t true _ _ k hg h.1.2 hr.1.2 (fit hf), own_gen c true _ _ k ?_ h.1.1 hr.1.1 (fit hf),
        own_gen f true _ _ k hg h.2 hr.2 (fit hf)⟩
      simp only [Own, OwnAll, labelOk]
      exact ⟨⟨trivial, he⟩, trivial, trivial⟩
  | .comp kd i v hc c sort, esc, e, p, k, he, h, hr, hf => by
    rw [gen]
    simp only [readable, Bool.and_eq_true, Bool.not_eq_true'] at h
    simp only [runnable, Bool.and_eq_true] at hr
    refine own_fin he ?_
    have hv : Own N G (.name (N.param (render N e)) : PyExpr Val) := by
      simp only [Own]
      exact hp _
    have hks : ¬ (kd = .set ∧ sort.isSome = true) := by
      rintro ⟨rfl, h2⟩
      simp [h2] at h
    rw [if_neg hks]
    simp only [Own]
    refine ⟨⟨hks, fun kr hkr => litOk_of hN (fun v hv => hf.objs v ?_)⟩, hp _, own_gen i false _ _ none hv h.1.1.2 hr.1.1 (fit hf),
      own_gen v false _ _ none hv h.1.2 hr.1.2 (fit hf), he, own_gen c false _ _ none hv h.2 hr.2 (fit hf)⟩
    obtain ⟨key, rev⟩ := kr
    simp [objsOf, hkr, hv]
  | .coll kd items, esc, e, p, k, he, h, hr, hf => by
    rw [gen]
    refine own_fin he ?_
    simp only [readable] at h
    simp only [runnable, Bool.and_eq_true, bne_iff_ne, ne_eq] at hr
    have ha : argsOk G (argsAll items) := (show Fit N G (argsAll items) (labelsAll items) (objsAll items) from fit hf).args
    split
    · rename_i ho
      rw [if_pos ho, Bool.and_eq_true] at h
      simp only [Own]
      exact ⟨own_genOpt items _ 0 h.1 hr.2 (fit hf), he, argsOk_sorted ha, hr.1, itemsOk_genOpt ho⟩
    · rename_i ho
      rw [if_neg ho] at h
      simp only [Bool.and_eq_true, Bool.not_eq_true'] at h
      rw [if_neg (by rw [h.1.1]; exact Bool.false_ne_true)]
      simp only [Own]
      exact own_genAll items e _ 0 k he h.2 hr.2 (fit hf)
  | .dict kvs, esc, e, p, k, he, h, hr, hf => by
    rw [gen]
    refine own_fin he ?_
    simp only [readable] at h
    simp only [runnable, Bool.and_eq_true, beq_iff_eq] at hr
    have ha : argsOk G (argsAll kvs) := (show Fit N G (argsAll kvs) (labelsAll kvs) (objsAll kvs) from fit hf).args
    split
    · rename_i ho
      rw [if_pos ho, Bool.and_eq_true] at h
      simp only [Own]
      exact ⟨own_genOptPairs kvs _ 0 h.1 hr.2 (fit hf), he, argsOk_sorted ha, itemsOk_genOptPairs ho hr.1⟩
    · rename_i ho
      rw [if_neg ho, Bool.and_eq_true] at h
      simp only [Own]
      exact own_genAll kvs e _ 0 k he h.2 hr.2 (fit hf)
  | .opt _ _, esc, e, p, k, he, h, hr, hf => by simp [readable] at h
  | .caching c n labels convs, esc, e, p, k, he, h, hr, hf => by
    rw [gen]
    simp only [readable, Bool.and_eq_true] at h
    simp only [runnable, Bool.and_eq_true] at hr
    refine own_fin he ?_
    have hn : ∀ p, N.cached p ≠ n := hf.labels n (by simp [labelsOf])
    have hg : Own N G (.getLabel (.user n) : PyExpr Val) := by
      simp only [Own, labelOk]
      exact hn
    simp only [Own, OwnAll, labelOk]
    refine ⟨⟨hn, own_gen c false e _ k he h.1.1.1 hr.1 (fit hf)⟩, ?_⟩
    refine ownAll_append (ownAll_labelLines (fun l hl => hf.labels l (by simp [labelsOf, hl]))
      (own_genAll convs _ _ 0 none hg h.2 hr.2 (fit hf))) ?_
    simp only [OwnAll]
    exact ⟨hg, trivial⟩
  | .tap o ms, esc, e, p, k, he, h, hr, hf => by
    rw [gen]
    simp only [readable, Bool.and_eq_true] at h
    simp only [runnable, Bool.and_eq_true] at hr
    refine own_fin he ?_
    simp only [Own]
    have hs := own_genStmts ms (p ++ [1]) 0 hr.2 (fit hf)
    exact ⟨hs.1, own_gen o false e _ k he h.1 hr.1 (fit hf),
      argsOk_sorted (by have := hf.args; rwa [Conv.args] at this), sortedArgs_nodup _, hs.2⟩
  | .mutSetItem _ _, esc, e, p, k, he, h, hr, hf => by simp [readable] at h
  | .mutSetAttr a b, esc, e, p, k, he, h, hr, hf => by
    rw [gen]
    simp only [readable, Bool.and_eq_true] at h
    simp only [runnable, Bool.and_eq_true] at hr
    refine own_fin he ?_
    simp only [Own]
    exact ⟨he, own_gen a false e _ k he h.1 hr.1 (fit hf), own_gen b false e _ k he h.2 hr.2 (fit hf)⟩
  | .mutDelItem a, esc, e, p, k, he, h, hr, hf => by
    rw [gen]
    simp only [readable, Bool.and_eq_true] at h
    simp only [runnable] at hr
    refine own_fin he ?_
    simp only [Own]
    exact ⟨he, own_gen a false e _ k he h.1 hr (fit hf)⟩
  | .mutDelAttr a, esc, e, p, k, he, h, hr, hf => by
    rw [gen]
    simp only [readable] at h
    simp only [runnable] at hr
    refine own_fin he ?_
    simp only [Own]
    exact ⟨he, own_gen a false e _ k he h hr (fit hf)⟩
  | .mutCustom c, esc, e, p, k, he, h, hr, hf => by
    rw [gen]
    simp only [readable] at h
    simp only [runnable] at hr
    exact own_fin he (own_gen c false e _ k he h hr (fit hf))
  | .pipe a b, esc, e, p, k, he, h, hr, hf => by
    rw [gen]
    simp only [readable, Bool.and_eq_true] at h
    simp only [runnable, Bool.and_eq_true] at hr
    have ha := own_gen a esc e (p ++ [0]) k he h.1 hr.1 (fit hf)
    exact own_attachTo ha (own_gen b false _ _ _ ha h.2 hr.2 (fit hf))

theorem own_genAll : ∀ (cs : List (Conv Val)) (e : PyExpr Val) (p : List Nat) (n : Nat) (k : Option (Lit Val)),
    Own N G e → readableAll cs k = true → runnableAll cs = true → Fit N G (argsAll cs) (labelsAll cs) (objsAll cs) →
    OwnAll N G (genAll N cs e p n)
  | [], e, p, n, k, he, h, hr, hf => by simp [genAll, OwnAll]
  | c :: cs, e, p, n, k, he, h, hr, hf => by
    simp only [readableAll, Bool.and_eq_true] at h
    simp only [runnableAll, Bool.and_eq_true] at hr
    simp only [genAll, OwnAll]
    exact ⟨own_gen c false e _ k he h.1 hr.1 (fit hf), own_genAll cs e p (n + 1) k he h.2 hr.2 (fit hf)⟩

theorem own_genOpt : ∀ (cs : List (Conv Val)) (p : List Nat) (n : Nat),
    readableOpt cs = true → runnableAll cs = true → Fit N G (argsAll cs) (labelsAll cs) (objsAll cs) →
    OwnAll N G (genOpt N cs p n)
  | [], p, n, h, hr, hf => by simp [genOpt, OwnAll]
  | c :: cs, p, n, h, hr, hf => by
    have hd := own_data (N := N) hM
    cases hc : c.isOpt with
    | true =>
      cases c <;> simp only [Conv.isOpt, Bool.false_eq_true] at hc
      rename_i c cond
      simp only [readableOpt, Bool.and_eq_true] at h
      simp only [runnableAll, runnable, Bool.and_eq_true] at hr
      simp only [genOpt, OwnAll]
      exact ⟨own_gen cond false _ _ none hd h.1.2 hr.1.2 (fit hf), own_gen c false _ _ none hd h.1.1 hr.1.1 (fit hf),
        own_genOpt cs p (n + 1) h.2 hr.2 (fit hf)⟩
    | false =>
      rw [readableOpt_cons hc, Bool.and_eq_true] at h
      simp only [runnableAll, Bool.and_eq_true] at hr
      rw [genOpt_cons hc]
      simp only [OwnAll]
      exact ⟨by simp only [Own, litOk], own_gen c false _ _ none hd h.1 hr.1 (fit hf),
        own_genOpt cs p (n + 1) h.2 hr.2 (fit hf)⟩

theorem own_genOptPairs : ∀ (cs : List (Conv Val)) (p : List Nat) (n : Nat),
    readableOpt cs = true → runnableAll cs = true → Fit N G (argsAll cs) (labelsAll cs) (objsAll cs) →
    OwnAll N G (genOptPairs N cs p n)
  | [], p, n, h, hr, hf => by simp [genOptPairs, OwnAll]
  | [c], p, n, h, hr, hf => by simp [genOptPairs, OwnAll]
  | k :: v :: rest, p, n, h, hr, hf => by
    have hd := own_data (N := N) hM
    simp only [runnableAll, Bool.and_eq_true] at hr
    have hrest := own_genOptPairs rest p (n + 1)
    cases hk : k.isOpt with
    | true =>
      cases k <;> simp only [Conv.isOpt, Bool.false_eq_true] at hk
      rename_i k ck
      simp only [runnable, Bool.and_eq_true] at hr
      cases hv : v.isOpt with
      | true =>
        cases v <;> simp only [Conv.isOpt, Bool.false_eq_true] at hv
        rename_i v cv
        simp only [readableOpt, Bool.and_eq_true] at h
        simp only [runnable, Bool.and_eq_true] at hr
        simp only [genOptPairs, OwnAll, Own]
        exact ⟨⟨own_gen ck false _ _ none hd h.1.2 hr.1.2 (fit hf),
          own_gen cv false _ _ none hd h.2.1.2 hr.2.1.2 (fit hf), trivial⟩,
          own_gen k false _ _ none hd h.1.1 hr.1.1 (fit hf),
          own_gen v false _ _ none hd h.2.1.1 hr.2.1.1 (fit hf), hrest h.2.2 hr.2.2 (fit hf)⟩
      | false =>
        rw [readableOpt, readableOpt_cons hv] at h
        simp only [Bool.and_eq_true] at h
        rw [genOptPairs_left hv]
        simp only [OwnAll]
        exact ⟨own_gen ck false _ _ none hd h.1.2 hr.1.2 (fit hf), own_gen k false _ _ none hd h.1.1 hr.1.1 (fit hf),
          own_gen v false _ _ none hd h.2.1 hr.2.1 (fit hf), hrest h.2.2 hr.2.2 (fit hf)⟩
    | false =>
      rw [readableOpt_cons hk, Bool.and_eq_true] at h
      cases hv : v.isOpt with
      | true =>
        cases v <;> simp only [Conv.isOpt, Bool.false_eq_true] at hv
        rename_i v cv
        simp only [readableOpt, Bool.and_eq_true] at h
        simp only [runnable, Bool.and_eq_true] at hr
        rw [genOptPairs_right hk]
        simp only [OwnAll]
        exact ⟨own_gen cv false _ _ none hd h.2.1.2 hr.2.1.2 (fit hf),
          own_gen k false _ _ none hd h.1 hr.1 (fit hf), own_gen v false _ _ none hd h.2.1.1 hr.2.1.1 (fit hf),
          hrest h.2.2 hr.2.2 (fit hf)⟩
      | false =>
        rw [readableOpt_cons hv, Bool.and_eq_true] at h
        rw [genOptPairs_plain hk hv]
        simp only [OwnAll]
        exact ⟨by simp only [Own, litOk], own_gen k false _ _ none hd h.1 hr.1 (fit hf),
          own_gen v false _ _ none hd h.2.1 hr.2.1 (fit hf), hrest h.2.2 hr.2.2 (fit hf)⟩

theorem own_genStmts : ∀ (cs : List (Conv Val)) (p : List Nat) (n : Nat), runnableStmts cs = true →
    Fit N G (argsAll cs) (labelsAll cs) (objsAll cs) →
    OwnStmts N G (genAll N cs (.name "data_") p n) ∧ ∀ st ∈ genAll N cs (.name "data_") p n, wfStmt N st = true
  | [], p, n, hr, hf => by simp [genAll, OwnStmts]
  | c :: cs, p, n, hr, hf => by
    have hd := own_data (N := N) hM
    simp only [runnableStmts, Bool.and_eq_true] at hr
    have hrest := own_genStmts cs p (n + 1) hr.2 (fit hf)
    by_cases hs : ∃ k v, c = .mutSetItem k v
    · obtain ⟨k, v, rfl⟩ := hs
      simp only [runnable, Bool.and_eq_true] at hr
      have hk := own_gen k false _ (p ++ [n] ++ [0]) none hd hr.1.1.1 hr.1.2.1 (fit hf)
      have hv := own_gen v false _ (p ++ [n] ++ [1]) none hd hr.1.1.2 hr.1.2.2 (fit hf)
      have wk := wf_gen hN k false _ (p ++ [n] ++ [0]) none name_konst wf_data hr.1.1.1
      have wv := wf_gen hN v false _ (p ++ [n] ++ [1]) none name_konst wf_data hr.1.1.2
      simp only [genAll, gen, fin, Bool.false_eq_true, if_false, OwnStmts, List.mem_cons, forall_eq_or_imp, wfStmt, wf,
        isNeg, Bool.and_eq_true, Bool.not_false]
      have wd := wf_data (N := N)
      rw [wf] at wd
      exact ⟨⟨⟨hd, hk, hv⟩, hrest.1⟩, ⟨⟨⟨trivial, wd⟩, wk⟩, wv⟩, hrest.2⟩
    · have h1 : readable c none = true := by
        have := hr.1.1
        revert this
        cases c <;> first | exact fun h => h | exact absurd ⟨_, _, rfl⟩ hs
      have ho := own_gen c false _ (p ++ [n]) none hd h1 hr.1.2 (fit hf)
      have hw := wf_gen hN c false _ (p ++ [n]) none name_konst wf_data h1
      simp only [genAll, List.mem_cons, forall_eq_or_imp]
      refine ⟨ownStmts_cons _ ho hrest.1, ?_, hrest.2⟩
      rw [wfStmt_expr]
      · exact hw
      · intro o k v h0
        rw [h0] at ho
        simp [Own] at ho

end

end

end

end Verif.Exec
