import Verif.Expr.Correct

/-!
# Expressions: conversions evaluating their input once
-/

set_option autoImplicit false

namespace Verif.Expr

section
variable {Val U Err : Type} {R : Runtime Val U Err} {fuel : Nat} {N : Names Val}

/-- Input codes with the same text. -/
def Alike (N : Names Val) (e e' : PyExpr Val) : Prop :=
  e = e' ∨ (render N e = render N e' ∧ e.notStr ∧ e'.notStr)

theorem Alike.text {e e' : PyExpr Val} (h : Alike N e e') : render N e = render N e' := by
  rcases h with h | h
  · rw [h]
  · exact h.1

theorem alike_wrapItem (attr : Bool) {b b' i i' : PyExpr Val} (hb : Alike N b b') (hi : Alike N i i') :
    Alike N (wrapItem attr b i) (wrapItem attr b' i') := by
  have hbt := hb.text
  rcases hi with rfl | ⟨h1, h2, h3⟩
  · refine Or.inr ⟨?_, ?_, ?_⟩
    · unfold wrapItem
      cases attr with
      | false => simp only [Bool.false_eq_true, if_false, render, hbt]
      | true =>
        simp only [if_true]
        split
        · split <;> simp only [render, hbt]
        · simp only [render, hbt]
    all_goals
      unfold wrapItem
      cases attr with
      | false => trivial
      | true =>
        simp only [if_true]
        split
        · split <;> trivial
        · trivial
  · have key : ∀ (b i : PyExpr Val), i.notStr → wrapItem true b i = .getattr b i := by
      intro b i h
      cases i with
      | const l => cases l <;> first | rfl | exact h.elim
      | _ => rfl
    cases attr with
    | false => exact Or.inr ⟨by simp only [wrapItem, Bool.false_eq_true, if_false, render, hbt, h1], trivial, trivial⟩
    | true =>
      rw [key b i h2, key b' i' h3]
      exact Or.inr ⟨by simp only [render, hbt, h1], trivial, trivial⟩

/-- Two lists of codes. -/
inductive AlikeAll (N : Names Val) : List (PyExpr Val) → List (PyExpr Val) → Prop
  | nil : AlikeAll N [] []
  | cons {e e' : PyExpr Val} {es es' : List (PyExpr Val)} : Alike N e e' → AlikeAll N es es' →
      AlikeAll N (e :: es) (e' :: es')

theorem AlikeAll.text {es es' : List (PyExpr Val)} (h : AlikeAll N es es') :
    renderAll N es = renderAll N es' := by
  induction h with
  | nil => rfl
  | cons h _ ih => simp only [renderAll, h.text, ih]

theorem alike_wrapAll (attr : Bool) {is is' : List (PyExpr Val)} (hi : AlikeAll N is is') :
    ∀ {b b' : PyExpr Val}, Alike N b b' → Alike N (wrapAll attr b is) (wrapAll attr b' is') := by
  induction hi with
  | nil => exact fun h => h
  | cons h _ ih => exact fun hb => ih (alike_wrapItem attr hb h)

theorem alike_attachTo {a a' r r' : PyExpr Val} (ha : Alike N a a') (hr : Alike N r r') :
    Alike N (attachTo N a r) (attachTo N a' r') := by
  unfold attachTo
  rw [ha.text, hr.text]
  split
  · exact Or.inr ⟨by simp only [render, ha.text, hr.text], trivial, trivial⟩
  · exact hr

theorem alike_fin (esc : Bool) {a a' r r' : PyExpr Val} (ha : Alike N a a') (hr : Alike N r r') :
    Alike N (fin N esc a r) (fin N esc a' r') := by
  unfold fin
  split
  · exact alike_attachTo ha hr
  · exact hr

theorem alike_refl (e : PyExpr Val) : Alike N e e := Or.inl rfl

mutual

/-- Code generation looks at the text of the input only. -/
theorem alike_gen (esc : Bool) : ∀ (c : Conv Val) {e e' : PyExpr Val} (p : List Nat), Alike N e e' →
    Alike N (gen N esc c e p) (gen N esc c e' p)
  | .this, e, e', p, h => alike_fin esc h h
  | .naive l, e, e', p, h => alike_fin esc h (alike_refl _)
  | .arg n, e, e', p, h => alike_fin esc h (alike_refl _)
  | .label n, e, e', p, h => alike_fin esc h (alike_refl _)
  | .lookup attr s idx, e, e', p, h =>
    alike_fin esc h (alike_wrapAll attr (alike_genAll idx _ 0 h) (alike_gen false s _ h))
  | .lookupD attr s idx d, e, e', p, h => by
    have h1 := alike_gen false s (p ++ [0]) h
    have h2 := alike_gen false d (p ++ [2]) h
    simp only [gen]
    refine alike_fin esc h (Or.inr ⟨?_, trivial, trivial⟩)
    simp only [render, h1.text, h2.text, h.text]
  | .call s as kw, e, e', p, h => by
    have h1 := alike_gen false s (p ++ [0]) h
    have h2 := alike_genAll as (p ++ [1]) 0 h
    simp only [gen]
    refine alike_fin esc h (Or.inr ⟨?_, trivial, trivial⟩)
    simp only [render, h1.text, h2.text]
  | .boolop isAnd as, e, e', p, h => by
    have h2 := alike_genAll as (p ++ [1]) 0 h
    simp only [gen]
    refine alike_fin esc h (Or.inr ⟨?_, trivial, trivial⟩)
    simp only [render, h2.text]
  | .eqs as, e, e', p, h => by
    have h2 := alike_genAll as (p ++ [1]) 0 h
    simp only [gen]
    refine alike_fin esc h (Or.inr ⟨?_, trivial, trivial⟩)
    simp only [render, h2.text]
  | .not a, e, e', p, h => by
    have h1 := alike_gen false a (p ++ [0]) h
    simp only [gen]
    refine alike_fin esc h (Or.inr ⟨?_, trivial, trivial⟩)
    simp only [render, h1.text]
  | .bin o a b, e, e', p, h => by
    have h1 := alike_gen false a (p ++ [0]) h
    have h2 := alike_gen false b (p ++ [1]) h
    simp only [gen]
    refine alike_fin esc h (Or.inr ⟨?_, trivial, trivial⟩)
    cases o <;> simp only [render, h1.text, h2.text]
  | .neg a, e, e', p, h => by
    have h1 := alike_gen false a (p ++ [0]) h
    simp only [gen]
    refine alike_fin esc h (Or.inr ⟨?_, trivial, trivial⟩)
    simp only [render, h1.text]
  | .ifc c t f noCache, e, e', p, h => by
    have hc : Alike N (if (inputIsSimple (render N e) || noCache) = true then e
        else .boolop false [.addLabel (.cached p) e, .getLabel (.cached p)])
        (if (inputIsSimple (render N e') || noCache) = true then e'
        else .boolop false [.addLabel (.cached p) e', .getLabel (.cached p)]) := by
      rw [h.text]
      split
      · exact h
      · exact Or.inr ⟨by simp only [render, renderAll, h.text], trivial, trivial⟩
    have hr : Alike N (if (inputIsSimple (render N e) || noCache) = true then e
        else .getLabel (.cached p))
        (if (inputIsSimple (render N e') || noCache) = true then e'
        else .getLabel (.cached p)) := by
      rw [h.text]
      split
      · exact h
      · exact alike_refl _
    have h1 := alike_gen true c (p ++ [0]) hc
    have h2 := alike_gen true t (p ++ [1]) hr
    have h3 := alike_gen true f (p ++ [2]) hr
    simp only [gen]
    refine alike_fin esc h (Or.inr ⟨?_, trivial, trivial⟩)
    simp only [render, h1.text, h2.text, h3.text]
  | .comp k item value hasCond cond sort, e, e', p, h => by
    simp only [gen]
    refine alike_fin esc h ?_
    split
    · exact alike_refl _
    · refine Or.inr ⟨?_, trivial, trivial⟩
      simp only [render, h.text]
  | .coll k items, e, e', p, h => by
    have h2 := alike_genAll items (p ++ [1]) 0 h
    simp only [gen]
    refine alike_fin esc h ?_
    split
    · exact Or.inr ⟨by simp only [render, h.text], trivial, trivial⟩
    · split
      · exact alike_refl _
      · refine Or.inr ⟨?_, trivial, trivial⟩
        split
        · simp only [render, h2.text]
        · cases k <;> simp only [render, h2.text]
  | .dict kvs, e, e', p, h => by
    have h2 := alike_genAll kvs (p ++ [1]) 0 h
    simp only [gen]
    refine alike_fin esc h ?_
    split
    · exact Or.inr ⟨by simp only [render, h.text], trivial, trivial⟩
    · exact Or.inr ⟨by simp only [render, h2.text], trivial, trivial⟩
  | .opt _ _, e, e', p, h => alike_fin esc h (alike_refl _)
  | .caching c name labels convs, e, e', p, h => by
    have h1 := alike_gen false c (p ++ [0]) h
    simp only [gen]
    refine alike_fin esc h (Or.inr ⟨?_, trivial, trivial⟩)
    simp only [render, renderAll, h1.text]
  | .tap o ms, e, e', p, h => by
    have h1 := alike_gen false o (p ++ [0]) h
    simp only [gen]
    refine alike_fin esc h (Or.inr ⟨?_, trivial, trivial⟩)
    simp only [render, h1.text]
  | .mutSetItem k v, e, e', p, h => by
    have h1 := alike_gen false k (p ++ [0]) h
    have h2 := alike_gen false v (p ++ [1]) h
    simp only [gen]
    refine alike_fin esc h (Or.inr ⟨?_, trivial, trivial⟩)
    simp only [render, h1.text, h2.text, h.text]
  | .mutSetAttr k v, e, e', p, h => by
    have h1 := alike_gen false k (p ++ [0]) h
    have h2 := alike_gen false v (p ++ [1]) h
    simp only [gen]
    refine alike_fin esc h (Or.inr ⟨?_, trivial, trivial⟩)
    simp only [render, h1.text, h2.text, h.text]
  | .mutDelItem k, e, e', p, h => by
    have h1 := alike_gen false k (p ++ [0]) h
    simp only [gen]
    refine alike_fin esc h (Or.inr ⟨?_, trivial, trivial⟩)
    simp only [render, h1.text, h.text]
  | .mutDelAttr k, e, e', p, h => by
    have h1 := alike_gen false k (p ++ [0]) h
    simp only [gen]
    refine alike_fin esc h (Or.inr ⟨?_, trivial, trivial⟩)
    simp only [render, h1.text, h.text]
  | .mutCustom c, e, e', p, h => alike_fin esc h (alike_gen false c _ h)
  | .pipe a b, e, e', p, h => by
    have h1 := alike_gen esc a (p ++ [0]) h
    have h2 := alike_gen false b (p ++ [1]) h1
    simp only [gen]
    exact alike_attachTo h1 h2

/-- The same for several conversions. -/
theorem alike_genAll : ∀ (cs : List (Conv Val)) {e e' : PyExpr Val} (p : List Nat) (n : Nat), Alike N e e' →
    AlikeAll N (genAll N cs e p n) (genAll N cs e' p n)
  | [], e, e', p, n, h => .nil
  | c :: cs, e, e', p, n, h => .cons (alike_gen false c _ h) (alike_genAll cs p (n + 1) h)

end

/-! ## The text of the input is in the code -/

/-- `a` is a part of `b`. -/
def Sub (a b : String) : Prop := ∃ l r, b = l ++ a ++ r

theorem Sub.refl (a : String) : Sub a a := ⟨"", "", by simp⟩

theorem Sub.left {a b : String} (h : Sub a b) (x : String) : Sub a (x ++ b) := by
  obtain ⟨l, r, rfl⟩ := h
  exact ⟨x ++ l, r, by simp only [String.append_assoc]⟩

theorem Sub.right {a b : String} (h : Sub a b) (x : String) : Sub a (b ++ x) := by
  obtain ⟨l, r, rfl⟩ := h
  exact ⟨l, r ++ x, by simp only [String.append_assoc]⟩

theorem Sub.trans {a b c : String} (h : Sub a b) (h' : Sub b c) : Sub a c := by
  obtain ⟨l, r, rfl⟩ := h
  obtain ⟨l', r', rfl⟩ := h'
  exact ⟨l' ++ l, r ++ r', by simp only [String.append_assoc]⟩

theorem Sub.isIn {a b : String} (h : Sub a b) : isIn a b = true := by
  obtain ⟨l, r, rfl⟩ := h
  simp only [Expr.isIn, List.any_eq_true, List.mem_range]
  refine ⟨l.toList.length, ?_, ?_⟩
  · simp only [String.toList_append, List.length_append]
    omega
  · simp [String.toList_append]

theorem sub_join {x : String} (sep : String) : ∀ {xs : List String}, x ∈ xs → Sub x (join sep xs)
  | [], h => by cases h
  | [y], h => by
    rw [List.mem_singleton.1 h]
    exact Sub.refl _
  | y :: z :: rest, h => by
    simp only [join]
    rcases List.mem_cons.1 h with h | h
    · rw [h]
      exact ((Sub.refl _).right _).right _
    · exact (sub_join sep h).left _

theorem sub_withKw {x : String} {kw texts : List String} (h : x ∈ texts) :
    ∃ y ∈ withKw kw texts, Sub x y := by
  unfold withKw
  rw [← List.take_append_drop (texts.length - kw.length) texts] at h
  rcases List.mem_append.1 h with h | h
  · exact ⟨x, List.mem_append_left _ h, Sub.refl _⟩
  · obtain ⟨i, hi, rfl⟩ := List.mem_iff_getElem.1 h
    have hlen : i < kw.length := by
      rw [List.length_drop] at hi
      omega
    refine ⟨kw[i] ++ "=" ++ (texts.drop (texts.length - kw.length))[i], List.mem_append_right _ ?_,
      (Sub.refl _).left _⟩
    refine List.mem_iff_getElem.2 ⟨i, ?_, ?_⟩
    · rw [List.length_zipWith]
      omega
    · rw [List.getElem_zipWith]

theorem sub_pairTexts {x : String} : ∀ {texts : List String}, texts.length % 2 = 0 → x ∈ texts →
    ∃ y ∈ pairTexts texts, Sub x y
  | [], _, h => by cases h
  | [_], he, _ => by simp at he
  | k :: v :: rest, he, h => by
    simp only [pairTexts]
    rcases List.mem_cons.1 h with h | h
    · rw [h]
      exact ⟨_, List.mem_cons_self, ((Sub.refl _).right _).right _⟩
    rcases List.mem_cons.1 h with h | h
    · rw [h]
      exact ⟨_, List.mem_cons_self, (Sub.refl _).left _⟩
    · obtain ⟨y, hy, hs⟩ := sub_pairTexts (by simp only [List.length_cons] at he; omega) h
      exact ⟨y, List.mem_cons_of_mem _ hy, hs⟩

theorem sub_wrapItem (attr : Bool) (b i : PyExpr Val) : Sub (render N b) (render N (wrapItem attr b i)) := by
  unfold wrapItem
  cases attr with
  | false =>
    simp only [Bool.false_eq_true, if_false, render]
    exact (((Sub.refl _).right _).right _).right _
  | true =>
    have h2 : ∀ i : PyExpr Val, Sub (render N b) (render N (.getattr b i)) := by
      intro i
      simp only [render]
      exact ((((Sub.refl _).left _).right _).right _).right _
    simp only [if_true]
    split
    · split
      · simp only [render]
        exact ((Sub.refl _).right _).right _
      · exact h2 _
    · exact h2 _

theorem sub_wrapAll (attr : Bool) : ∀ (is : List (PyExpr Val)) (b : PyExpr Val),
    Sub (render N b) (render N (wrapAll attr b is))
  | [], b => Sub.refl _
  | i :: is, b => (sub_wrapItem attr b i).trans (sub_wrapAll attr is _)

theorem renderAll_length (es : List (PyExpr Val)) : (renderAll N es).length = es.length := by
  induction es with
  | nil => rfl
  | cons e es ih => simp only [renderAll, List.length_cons, ih]

theorem genAll_length (cs : List (Conv Val)) (e : PyExpr Val) (p : List Nat) : ∀ n,
    (genAll N cs e p n).length = cs.length := by
  induction cs with
  | nil => intro n; rfl
  | cons c cs ih => intro n; simp only [genAll, List.length_cons, ih]

theorem gen_pipe (esc : Bool) (a b : Conv Val) (e : PyExpr Val) (p : List Nat) :
    gen N esc (.pipe a b) e p =
      attachTo N (gen N esc a e (p ++ [0])) (gen N false b (gen N esc a e (p ++ [0])) (p ++ [1])) := rfl

theorem sub_attachTo (a r : PyExpr Val) : Sub (render N r) (render N (attachTo N a r)) := by
  unfold attachTo
  split
  · simp only [render]
    exact ((Sub.refl _).left _).right _
  · exact Sub.refl _

/-- The code of `c` has the text of its input in it. -/
def SubOk (N : Names Val) (c : Conv Val) : Prop :=
  ∀ esc e p, Sub (render N e) (render N (gen N esc c e p))

theorem SubOk.of_plain {c : Conv Val} (hg : ∀ esc e p, gen N esc c e p = fin N esc e (gen N false c e p))
    (h : ∀ e p, Sub (render N e) (render N (gen N false c e p))) : SubOk N c := by
  intro esc e p
  rw [hg]
  unfold fin
  split
  · exact (h e p).trans (sub_attachTo _ _)
  · exact h e p

/-- Several conversions. -/
def SubAll (N : Names Val) (cs : List (Conv Val)) : Prop :=
  ∀ e p n, ∃ x ∈ renderAll N (genAll N cs e p n), Sub (render N e) x

theorem sub_lookup (attr : Bool) {s : Conv Val} (idx : List (Conv Val)) (h : SubOk N s) :
    SubOk N (.lookup attr s idx) :=
  .of_plain (fun _ _ _ => rfl) (fun e p => (h false e (p ++ [0])).trans (sub_wrapAll attr _ _))

theorem sub_lookupD (attr : Bool) (s : Conv Val) (idx : List (Conv Val)) (d : Conv Val) :
    SubOk N (.lookupD attr s idx d) := by
  refine .of_plain (fun _ _ _ => rfl) (fun e p => ?_)
  simp only [gen, fin, Bool.false_eq_true, if_false, render]
  exact ((((Sub.refl _).left _).right _).right _).right _

theorem sub_call {s : Conv Val} {as : List (Conv Val)} (kw : List String) (h : SubOk N s ∨ SubAll N as) :
    SubOk N (.call s as kw) := by
  refine .of_plain (fun _ _ _ => rfl) (fun e p => ?_)
  simp only [gen, fin, Bool.false_eq_true, if_false, render]
  rcases h with h | h
  · exact (((h false e (p ++ [0])).right _).right _).right _
  · obtain ⟨x, hx, hs⟩ := h e (p ++ [1]) 0
    obtain ⟨y, hy, hs'⟩ := sub_withKw (kw := kw) hx
    exact (((hs.trans hs').trans (sub_join _ hy)).left _).right _

theorem sub_boolop (isAnd : Bool) {as : List (Conv Val)} (h : SubAll N as) : SubOk N (.boolop isAnd as) := by
  refine .of_plain (fun _ _ _ => rfl) (fun e p => ?_)
  obtain ⟨x, hx, hs⟩ := h e (p ++ [1]) 0
  simp only [gen, fin, Bool.false_eq_true, if_false, render]
  exact ((hs.trans (sub_join _ hx)).left _).right _

theorem sub_eqs {as : List (Conv Val)} (h : SubAll N as) : SubOk N (.eqs as) := by
  refine .of_plain (fun _ _ _ => rfl) (fun e p => ?_)
  obtain ⟨x, hx, hs⟩ := h e (p ++ [1]) 0
  simp only [gen, fin, Bool.false_eq_true, if_false, render]
  exact ((hs.trans (sub_join _ hx)).left _).right _

theorem sub_not {a : Conv Val} (h : SubOk N a) : SubOk N (.not a) := by
  refine .of_plain (fun _ _ _ => rfl) (fun e p => ?_)
  simp only [gen, fin, Bool.false_eq_true, if_false, render]
  exact ((h false e _).left _).right _

theorem sub_neg {a : Conv Val} (h : SubOk N a) : SubOk N (.neg a) := by
  refine .of_plain (fun _ _ _ => rfl) (fun e p => ?_)
  simp only [gen, fin, Bool.false_eq_true, if_false, render]
  exact ((h false e _).left _).right _

theorem sub_bin (o : BinOp) {a b : Conv Val} (h : SubOk N a ∨ SubOk N b) : SubOk N (.bin o a b) := by
  refine .of_plain (fun _ _ _ => rfl) (fun e p => ?_)
  have key : Sub (render N e) (render N (gen N false a e (p ++ [0]))) ∨
      Sub (render N e) (render N (gen N false b e (p ++ [1]))) :=
    h.imp (fun h => h false e _) (fun h => h false e _)
  have ha : ∀ x y : String, Sub (render N e) (render N (gen N false a e (p ++ [0]))) →
      Sub (render N e) ("(" ++ render N (gen N false a e (p ++ [0])) ++ x ++
        render N (gen N false b e (p ++ [1])) ++ y) :=
    fun x y hs => (((hs.left _).right _).right _).right _
  have hb : ∀ x y : String, Sub (render N e) (render N (gen N false b e (p ++ [1]))) →
      Sub (render N e) ("(" ++ render N (gen N false a e (p ++ [0])) ++ x ++
        render N (gen N false b e (p ++ [1])) ++ y) :=
    fun x y hs => (hs.left _).right _
  have hg : gen N false (.bin o a b) e p =
    .bin o (gen N false a e (p ++ [0])) (gen N false b e (p ++ [1])) := rfl
  rw [hg]
  by_cases ho : o = .index
  · subst ho
    simp only [render]
    exact key.elim (ha _ _) (hb _ _)
  · have : render N (.bin o (gen N false a e (p ++ [0])) (gen N false b e (p ++ [1]))) =
      "(" ++ render N (gen N false a e (p ++ [0])) ++ o.text ++ render N (gen N false b e (p ++ [1])) ++ ")" := by
      cases o <;> first | rfl | exact absurd rfl ho
    rw [this]
    exact key.elim (ha _ _) (hb _ _)

theorem sub_ifc {c : Conv Val} (t f : Conv Val) (noCache : Bool) (h : SubOk N c) :
    SubOk N (.ifc c t f noCache) := by
  refine .of_plain (fun _ _ _ => rfl) (fun e p => ?_)
  simp only [gen, fin, Bool.false_eq_true, if_false, render]
  refine Sub.right (Sub.right (Sub.right (Sub.left ?_ _) _) _) _
  split
  · exact h true e _
  · refine Sub.trans ?_ (h true _ _)
    simp only [render, renderAll, join]
    exact ((((((Sub.refl _).left _).right _).right _).right _).left _).right _

theorem sub_comp (k : Kind) (item value : Conv Val) (hasCond : Bool) (cond : Conv Val)
    (sort : Option (Lit Val × Bool)) (hk : ¬ (k = .set ∧ sort.isSome = true)) :
    SubOk N (.comp k item value hasCond cond sort) := by
  refine .of_plain (fun _ _ _ => rfl) (fun e p => ?_)
  have hsort : ∀ x, Sub (render N e) x → Sub (render N e) (sortText N k x sort) := by
    intro x hx
    unfold sortText
    split
    · exact hx
    · have hs : ∀ a b c d, Sub (render N e) ("sorted(" ++ x ++ a ++ b ++ c ++ d ++ ")") :=
        fun a b c d => (((((hx.left _).right _).right _).right _).right _).right _
      cases k
      · exact hs _ _ _ _
      · exact ((hs _ _ _ _).left _).right _
      · exact hs _ _ _ _
      · exact ((hs _ _ _ _).left _).right _
  have hg : ∀ a b c d : String, Sub (render N e) (a ++ b ++ c ++ " in " ++ render N e ++ d) :=
    fun a b c d => ((Sub.refl _).left _).right _
  simp only [gen, fin, Bool.false_eq_true, if_false, if_neg hk, render]
  refine hsort _ ?_
  cases k
  · exact ((hg _ _ _ _).left _).right _
  · simp only []
    split <;> exact ((hg _ _ _ _).left _).right _
  · exact ((hg _ _ _ _).left _).right _
  · simp only []
    split <;> exact ((hg _ _ _ _).left _).right _

theorem sub_coll (k : Kind) {items : List (Conv Val)}
    (h : items.any Conv.isOpt = true ∨ (SubAll N items ∧ k ≠ .dict)) : SubOk N (.coll k items) := by
  refine .of_plain (fun _ _ _ => rfl) (fun e p => ?_)
  simp only [gen, fin, Bool.false_eq_true, if_false]
  split
  · simp only [render]
    exact (Sub.left (sub_join _ List.mem_cons_self) _).right _
  · rename_i hno
    obtain ⟨h', hk⟩ := h.resolve_left hno
    obtain ⟨x, hx, hs⟩ := h' e (p ++ [1]) 0
    have hne : items.isEmpty = false := by
      cases items
      · simp [genAll, renderAll] at hx
      · rfl
    simp only [hne, Bool.false_and, Bool.false_eq_true, if_false]
    cases k
    · simp only [render]
      exact ((hs.trans (sub_join _ hx)).left _).right _
    · simp only [render]
      exact ((hs.trans (sub_join _ hx)).left _).right _
    · simp only [render]
      exact ((hs.trans (sub_join _ hx)).left _).right _
    · exact absurd rfl hk

theorem sub_dict {kvs : List (Conv Val)}
    (h : kvs.any Conv.isOpt = true ∨ (SubAll N kvs ∧ kvs.length % 2 = 0)) : SubOk N (.dict kvs) := by
  refine .of_plain (fun _ _ _ => rfl) (fun e p => ?_)
  simp only [gen, fin, Bool.false_eq_true, if_false]
  split
  · simp only [render]
    exact (Sub.left (sub_join _ List.mem_cons_self) _).right _
  · rename_i hno
    obtain ⟨h', hk⟩ := h.resolve_left hno
    obtain ⟨x, hx, hs⟩ := h' e (p ++ [1]) 0
    obtain ⟨y, hy, hs'⟩ := sub_pairTexts (by
      rw [renderAll_length, genAll_length]
      exact hk) hx
    simp only [render]
    exact (((hs.trans hs').trans (sub_join _ hy)).left _).right _

theorem sub_caching {c : Conv Val} (name : String) (labels : List String) (convs : List (Conv Val))
    (h : SubOk N c) : SubOk N (.caching c name labels convs) := by
  refine .of_plain (fun _ _ _ => rfl) (fun e p => ?_)
  simp only [gen, fin, Bool.false_eq_true, if_false, render, renderAll]
  refine (Sub.left (Sub.trans ?_ (sub_join _ List.mem_cons_self)) _).right _
  exact ((h false e _).left _).right _

theorem sub_tap {o : Conv Val} (ms : List (Conv Val)) (h : SubOk N o) : SubOk N (.tap o ms) := by
  refine .of_plain (fun _ _ _ => rfl) (fun e p => ?_)
  simp only [gen, fin, Bool.false_eq_true, if_false, render]
  exact (Sub.left ((h false e _).trans (sub_join _ List.mem_cons_self)) _).right _

theorem sub_custom {c : Conv Val} (h : SubOk N c) : SubOk N (.mutCustom c) :=
  .of_plain (fun _ _ _ => rfl) (fun e p => h false e _)

theorem sub_pipe {a b : Conv Val} (ha : SubOk N a) (hb : SubOk N b) : SubOk N (.pipe a b) := by
  intro esc e p
  rw [gen_pipe]
  exact ((ha esc e _).trans (hb false _ _)).trans (sub_attachTo _ _)

theorem sub_head {c : Conv Val} (cs : List (Conv Val)) (h : SubOk N c) : SubAll N (c :: cs) := by
  intro e p n
  simp only [genAll, renderAll]
  exact ⟨_, List.mem_cons_self, h false e _⟩

theorem sub_tail (c : Conv Val) {cs : List (Conv Val)} (h : SubAll N cs) : SubAll N (c :: cs) := by
  intro e p n
  obtain ⟨x, hx, hs⟩ := h e p (n + 1)
  simp only [genAll, renderAll]
  exact ⟨x, List.mem_cons_of_mem _ hx, hs⟩

mutual

theorem sub_once : ∀ (simple : Bool) (c : Conv Val), c.once simple = true → SubOk N c
  | _, .this, _ => .of_plain (fun _ _ _ => rfl) (fun e _ => Sub.refl _)
  | b, .lookup attr s idx, h => sub_lookup attr idx (sub_once b s (by
      simp only [Conv.once, Bool.and_eq_true] at h; exact h.1))
  | _, .lookupD attr s idx d, _ => sub_lookupD attr s idx d
  | b, .call s as kw, h => sub_call kw (by
      simp only [Conv.once, Bool.or_eq_true, Bool.and_eq_true] at h
      exact h.imp (fun h => sub_once b s h.1) (fun h => sub_onceArgs b as h.2))
  | b, .boolop isAnd as, h => sub_boolop isAnd (sub_onceHead b as (by simpa only [Conv.once] using h))
  | b, .eqs as, h => sub_eqs (sub_onceHead b as (by simpa only [Conv.once] using h))
  | b, .not a, h => sub_not (sub_once b a (by simpa only [Conv.once] using h))
  | b, .bin o x y, h => sub_bin o (by
      simp only [Conv.once, Bool.or_eq_true, Bool.and_eq_true] at h
      exact h.imp (fun h => sub_once b x h.1) (fun h => sub_once b y h.2))
  | b, .neg a, h => sub_neg (sub_once b a (by simpa only [Conv.once] using h))
  | b, .ifc c t f noCache, h => sub_ifc t f noCache (sub_once true c (by
      simp only [Conv.once, Bool.and_eq_true] at h; exact h.1.1))
  | b, .comp k item value hasCond cond sort, h => sub_comp k item value hasCond cond sort (by
      rintro ⟨h1, h2⟩
      simp [Conv.once, h1, h2] at h)
  | b, .coll k items, h => sub_coll k (by
      simp only [Conv.once, Bool.or_eq_true, Bool.and_eq_true] at h
      exact h.imp id (fun h => ⟨sub_onceArgs b items h.1, by simpa using h.2⟩))
  | b, .dict kvs, h => sub_dict (by
      simp only [Conv.once, Bool.or_eq_true, Bool.and_eq_true] at h
      exact h.imp id (fun h => ⟨sub_onceArgs b kvs h.1, by simpa using h.2⟩))
  | b, .caching c name labels convs, h =>
    sub_caching name labels convs (sub_once b c (by simpa only [Conv.once] using h))
  | b, .tap o ms, h => sub_tap ms (sub_once b o (by simpa only [Conv.once] using h))
  | b, .mutCustom c, h => sub_custom (sub_once b c (by simpa only [Conv.once] using h))
  | b, .pipe x y, h => by
    simp only [Conv.once, Bool.and_eq_true] at h
    exact sub_pipe (sub_once b x h.1) (sub_once true y h.2)
  | _, .naive _, h => by simp [Conv.once] at h
  | _, .arg _, h => by simp [Conv.once] at h
  | _, .label _, h => by simp [Conv.once] at h
  | _, .opt _ _, h => by simp [Conv.once] at h
  | _, .mutSetItem _ _, h => by simp [Conv.once] at h
  | _, .mutSetAttr _ _, h => by simp [Conv.once] at h
  | _, .mutDelItem _, h => by simp [Conv.once] at h
  | _, .mutDelAttr _, h => by simp [Conv.once] at h

theorem sub_onceArgs : ∀ (simple : Bool) (cs : List (Conv Val)), onceArgs simple cs = true → SubAll N cs
  | _, [], h => by simp [onceArgs] at h
  | b, c :: cs, h => by
    simp only [onceArgs, Bool.or_eq_true, Bool.and_eq_true] at h
    rcases h with h | h
    · exact sub_head cs (sub_once b c h.1)
    · exact sub_tail c (sub_onceArgs b cs h.2)

theorem sub_onceHead : ∀ (simple : Bool) (cs : List (Conv Val)), onceHead simple cs = true → SubAll N cs
  | _, [], h => by simp [onceHead] at h
  | b, c :: cs, h => by
    simp only [onceHead, Bool.and_eq_true] at h
    exact sub_head cs (sub_once b c h.1)

end

/-! ## The input is evaluated once -/

theorem attachTo_sub {a r : PyExpr Val} (h : Sub (render N a) (render N r)) : attachTo N a r = r := by
  unfold attachTo
  rw [h.isIn]
  simp

theorem fin_sub {e r : PyExpr Val} (h : Sub (render N e) (render N r)) : fin N true e r = r := by
  simp only [fin, if_true]
  exact attachTo_sub h

/-- Nothing is attached, as the text of the input is in the code. -/
theorem esc_once (simple : Bool) : ∀ (c : Conv Val), c.once simple = true → ∀ (e : PyExpr Val) (p : List Nat),
    gen N true c e p = gen N false c e p := by
  intro c
  have key : ∀ c : Conv Val, (∀ esc e p, gen N esc c e p = fin N esc e (gen N false c e p)) →
      c.once simple = true → ∀ (e : PyExpr Val) (p : List Nat), gen N true c e p = gen N false c e p := by
    intro c hc h e p
    rw [hc]
    exact fin_sub (sub_once simple _ h false e p)
  cases c with
  | pipe a b =>
    intro h e p
    simp only [Conv.once, Bool.and_eq_true] at h
    rw [gen_pipe, gen_pipe, esc_once simple a h.1]
  | _ => exact key _ (fun _ _ _ => rfl)

theorem notStr_wrapAll (attr : Bool) : ∀ (is : List (PyExpr Val)) (b : PyExpr Val), b.notStr →
    (wrapAll attr b is).notStr
  | [], b, h => h
  | i :: is, b, h => by
    refine notStr_wrapAll attr is _ ?_
    unfold wrapItem
    cases attr with
    | false => trivial
    | true =>
      simp only [if_true]
      split
      · split <;> trivial
      · trivial

theorem notStr_once : ∀ (simple : Bool) (c : Conv Val), c.once simple = true → ∀ (e : PyExpr Val)
    (p : List Nat), e.notStr → (gen N false c e p).notStr := by
  intro simple c h e p he
  cases c with
  | this => exact he
  | naive => simp [Conv.once] at h
  | lookup attr s idx =>
    simp only [Conv.once, Bool.and_eq_true] at h
    exact notStr_wrapAll attr _ _ (notStr_once simple s h.1 e _ he)
  | mutCustom c => exact notStr_once simple c (by simpa only [Conv.once] using h) e _ he
  | pipe a b =>
    simp only [Conv.once, Bool.and_eq_true] at h
    rw [gen_pipe, attachTo_sub (sub_once true b h.2 false _ _)]
    exact notStr_once true b h.2 _ _ (notStr_once simple a h.1 e _ he)
  | comp =>
    simp only [gen, fin, Bool.false_eq_true, if_false]
    split <;> trivial
  | coll =>
    simp only [gen, fin, Bool.false_eq_true, if_false]
    split
    · trivial
    · split <;> trivial
  | dict =>
    simp only [gen, fin, Bool.false_eq_true, if_false]
    split <;> trivial
  | _ => trivial

/-- The code of a constant, an argument or a label does not depend on the input. -/
theorem inert_gen {c : Conv Val} (h : c.inert = true) (e e' : PyExpr Val) (p : List Nat) :
    gen N false c e p = gen N false c e' p := by
  cases c <;> simp [Conv.inert] at h <;> rfl

theorem inert_genAll {cs : List (Conv Val)} (h : cs.all Conv.inert = true) (e e' : PyExpr Val) (p : List Nat) :
    ∀ n, genAll N cs e p n = genAll N cs e' p n := by
  induction cs with
  | nil => intro n; rfl
  | cons c cs ih =>
    intro n
    simp only [List.all_cons, Bool.and_eq_true] at h
    simp only [genAll, ih h.2, inert_gen h.1 e e']

/-- The code of `c` evaluates the code of its input once, then does the rest with the value. -/
def OnceOk (R : Runtime Val U Err) (fuel : Nat) (N : Names Val) (simple : Bool) (c : Conv Val) : Prop :=
  ∀ e p ρ, e.notStr → (simple = false → inputIsSimple (render N e) = false) →
    eval R fuel (gen N false c e p) ρ =
      (eval R fuel e ρ >>= fun x => eval R fuel (gen N false c (.given (render N e) x) p) ρ)

/-- The same for several conversions. -/
def OnceAll (R : Runtime Val U Err) (fuel : Nat) (N : Names Val) (simple : Bool) (cs : List (Conv Val)) :
    Prop :=
  ∀ e p n ρ, e.notStr → (simple = false → inputIsSimple (render N e) = false) →
    evalAll R fuel (genAll N cs e p n) ρ =
      (eval R fuel e ρ >>= fun x => evalAll R fuel (genAll N cs (.given (render N e) x) p n) ρ)

variable {simple : Bool}

theorem once_this : OnceOk R fuel N simple .this := by
  intro e p ρ _ _
  simp only [gen, fin, Bool.false_eq_true, if_false, eval]
  rw [bind_pure']

/-- The rest of a chain of lookups. -/
theorem eval_wrapAll (attr : Bool) (ρ : Env Val) (is : List (PyExpr Val)) :
    ∃ K : Val → M Val U Err Val, ∀ b, eval R fuel (wrapAll attr b is) ρ = (eval R fuel b ρ >>= K) := by
  induction is with
  | nil => exact ⟨pure, fun b => by rw [bind_pure']; rfl⟩
  | cons i is ih =>
    obtain ⟨K, hK⟩ := ih
    refine ⟨fun x => eval R fuel i ρ >>= fun y => runOp R (if attr then .getattr else .getitem) [x, y] >>= K, ?_⟩
    intro b
    simp only [wrapAll, hK, eval_wrapItem, bind_assoc']

theorem once_lookup (attr : Bool) {s : Conv Val} {idx : List (Conv Val)} (hs : OnceOk R fuel N simple s)
    (hi : idx.all Conv.inert = true) : OnceOk R fuel N simple (.lookup attr s idx) := by
  intro e p ρ he hsim
  obtain ⟨K, hK⟩ := eval_wrapAll (R := R) (fuel := fuel) attr ρ (genAll N idx e (p ++ [1]) 0)
  simp only [gen, fin, Bool.false_eq_true, if_false]
  rw [hK, hs e _ ρ he hsim, bind_assoc']
  congr 1
  funext x
  rw [inert_genAll hi (.given (render N e) x) e, hK]

theorem once_lookupD (attr : Bool) (idx : List (Conv Val)) {d : Conv Val} (hd : d.inert = true) :
    OnceOk R fuel N simple (.lookupD attr .this idx d) := by
  intro e p ρ he hsim
  simp only [gen, fin, Bool.false_eq_true, if_false, bne_self_eq_false, eval, pure_bind']
  congr 1
  funext x
  rw [inert_gen hd (.given (render N e) x) e]

theorem once_call {s : Conv Val} {as : List (Conv Val)} (kw : List String)
    (h : (OnceOk R fuel N simple s ∧ as.all Conv.inert = true) ∨
      (s.isNaive = true ∧ OnceAll R fuel N simple as)) : OnceOk R fuel N simple (.call s as kw) := by
  intro e p ρ he hsim
  simp only [gen, fin, Bool.false_eq_true, if_false, eval]
  rcases h with ⟨h, hi⟩ | ⟨h, hi⟩
  · rw [h e _ ρ he hsim, bind_assoc']
    congr 1
    funext x
    rw [inert_genAll hi (.given (render N e) x) e]
  · cases s <;> simp [Conv.isNaive] at h
    simp only [gen, fin, Bool.false_eq_true, if_false, eval, pure_bind']
    rw [hi e _ _ ρ he hsim, bind_assoc']

theorem once_boolop (isAnd : Bool) {c : Conv Val} {cs : List (Conv Val)} (h : OnceOk R fuel N simple c)
    (hi : cs.all Conv.inert = true) : OnceOk R fuel N simple (.boolop isAnd (c :: cs)) := by
  intro e p ρ he hsim
  simp only [gen, fin, Bool.false_eq_true, if_false, eval, genAll, evalBool]
  rw [h e _ ρ he hsim, bind_assoc']
  congr 1
  funext x
  simp only [inert_genAll hi (.given (render N e) x) e]

theorem once_eqs {c : Conv Val} {cs : List (Conv Val)} (h : OnceOk R fuel N simple c)
    (hi : cs.all Conv.inert = true) : OnceOk R fuel N simple (.eqs (c :: cs)) := by
  intro e p ρ he hsim
  simp only [gen, fin, Bool.false_eq_true, if_false, eval, genAll, evalEqs]
  rw [h e _ ρ he hsim, bind_assoc']
  congr 1
  funext x
  simp only [inert_genAll hi (.given (render N e) x) e]

theorem once_not {a : Conv Val} (h : OnceOk R fuel N simple a) : OnceOk R fuel N simple (.not a) := by
  intro e p ρ he hsim
  simp only [gen, fin, Bool.false_eq_true, if_false, eval]
  rw [h e _ ρ he hsim, bind_assoc']

theorem once_neg {a : Conv Val} (h : OnceOk R fuel N simple a) : OnceOk R fuel N simple (.neg a) := by
  intro e p ρ he hsim
  simp only [gen, fin, Bool.false_eq_true, if_false, eval]
  rw [h e _ ρ he hsim, bind_assoc']

/-- Operators evaluate both operands, the left one first. -/
theorem eval_bin (o : BinOp) : ∃ op, ∀ (x y : PyExpr Val) (ρ : Env Val), eval R fuel (.bin o x y) ρ =
    (eval R fuel x ρ >>= fun a => eval R fuel y ρ >>= fun b => runOp R op [a, b]) := by
  refine ⟨if o = .index then .getitem else .bin o, fun x y ρ => ?_⟩
  cases o <;> simp [eval]

theorem once_bin (o : BinOp) {a b : Conv Val}
    (h : (OnceOk R fuel N simple a ∧ b.inert = true) ∨ (a.isNaive = true ∧ OnceOk R fuel N simple b)) :
    OnceOk R fuel N simple (.bin o a b) := by
  intro e p ρ he hsim
  obtain ⟨op, hop⟩ := eval_bin (R := R) (fuel := fuel) o
  simp only [gen, fin, Bool.false_eq_true, if_false, hop]
  rcases h with ⟨h, hi⟩ | ⟨h, hi⟩
  · rw [h e _ ρ he hsim, bind_assoc']
    congr 1
    funext x
    rw [inert_gen hi (.given (render N e) x) e]
  · cases a <;> simp [Conv.isNaive] at h
    simp only [gen, fin, Bool.false_eq_true, if_false, eval, pure_bind']
    rw [hi e _ ρ he hsim, bind_assoc']

theorem inert_simple {c : Conv Val} (h : c.inert = true) {e : PyExpr Val}
    (he : inputIsSimple (render N e) = true) (p : List Nat) : gen N true c e p = gen N false c e p := by
  cases c <;> simp [Conv.inert] at h <;> simp [gen, fin, attachTo, he]

theorem once_ifc {c t f : Conv Val} (hc : c.once true = true) (h : OnceOk R fuel N true c)
    (hb : simple = false ∨ (t.inert = true ∧ f.inert = true)) :
    OnceOk R fuel N simple (.ifc c t f false) := by
  intro e p ρ he hsim
  by_cases hs : inputIsSimple (render N e) = true
  · have hb' : t.inert = true ∧ f.inert = true := by
      rcases hb with hb | hb
      · rw [hsim hb] at hs
        cases hs
      · exact hb
    have hs' : ∀ x, inputIsSimple (render N (.given (render N e) x)) = true := fun x => by
      simpa only [render] using hs
    simp only [gen, fin, hs, hs', Bool.false_eq_true, if_false, Bool.or_false, if_true, eval]
    rw [esc_once true c hc, h e _ ρ he (by simp), bind_assoc']
    congr 1
    funext x
    rw [esc_once true c hc, inert_simple hb'.1 hs, inert_simple hb'.2 hs, inert_simple hb'.1 (hs' x),
      inert_simple hb'.2 (hs' x), inert_gen hb'.1 e (.given (render N e) x),
      inert_gen hb'.2 e (.given (render N e) x)]
  · have hs' : ∀ x, ¬ inputIsSimple (render N (.given (render N e) x)) = true := fun x => by
      simpa only [render] using hs
    simp only [gen, fin, hs, hs', Bool.false_eq_true, if_false, Bool.or_false, eval]
    have ht : ∀ x, render N (.boolop false [.addLabel (.cached p) (.given (render N e) x), .getLabel (.cached p)])
        = render N (.boolop false [.addLabel (.cached p) e, .getLabel (.cached p)]) := fun x => by
      simp only [render, renderAll]
    rw [esc_once true c hc, h _ _ ρ (by trivial) (by simp)]
    have hcond : eval R fuel (.boolop false [.addLabel (.cached p) e, .getLabel (.cached p)]) ρ =
        (eval R fuel e ρ >>= fun x => eval R fuel
          (.boolop false [.addLabel (.cached p) (.given (render N e) x), .getLabel (.cached p)]) ρ) := by
      simp only [eval, evalBool, bind_assoc', pure_bind']
    rw [hcond, bind_assoc', bind_assoc']
    congr 1
    funext x
    rw [esc_once true c hc, h _ _ ρ (by trivial) (by simp), ht x, bind_assoc']

theorem once_comp (k : Kind) (item value : Conv Val) (hasCond : Bool) (cond : Conv Val)
    (sort : Option (Lit Val × Bool)) (hk : ¬ (k = .set ∧ sort.isSome = true)) :
    OnceOk R fuel N simple (.comp k item value hasCond cond sort) := by
  intro e p ρ he hsim
  simp only [gen, fin, Bool.false_eq_true, if_false, if_neg hk, eval, render, pure_bind']

theorem once_coll (k : Kind) {items : List (Conv Val)}
    (h : items.any Conv.isOpt = true ∨ OnceAll R fuel N simple items ∧ items ≠ []) :
    OnceOk R fuel N simple (.coll k items) := by
  intro e p ρ he hsim
  simp only [gen, fin, Bool.false_eq_true, if_false]
  by_cases ho : items.any Conv.isOpt = true
  · simp only [ho, if_true, eval, pure_bind']
  · obtain ⟨h, hne⟩ := h.resolve_left ho
    have hne : items.isEmpty = false := by
      cases items
      · exact absurd rfl hne
      · rfl
    simp only [ho, if_false, hne, Bool.false_and, Bool.false_eq_true, eval]
    rw [h e _ _ ρ he hsim, bind_assoc']

theorem once_dict {kvs : List (Conv Val)}
    (h : kvs.any Conv.isOpt = true ∨ OnceAll R fuel N simple kvs) : OnceOk R fuel N simple (.dict kvs) := by
  intro e p ρ he hsim
  simp only [gen, fin, Bool.false_eq_true, if_false]
  by_cases ho : kvs.any Conv.isOpt = true
  · simp only [ho, if_true, eval, pure_bind']
  · have h := h.resolve_left ho
    simp only [ho, if_false, Bool.false_eq_true, eval]
    rw [h e _ _ ρ he hsim, bind_assoc']

theorem once_caching {c : Conv Val} (name : String) (labels : List String) (convs : List (Conv Val))
    (h : OnceOk R fuel N simple c) : OnceOk R fuel N simple (.caching c name labels convs) := by
  intro e p ρ he hsim
  simp only [gen, fin, Bool.false_eq_true, if_false, eval, evalBool, bind_assoc']
  rw [h e _ ρ he hsim, bind_assoc']

theorem once_tap {o : Conv Val} (ms : List (Conv Val)) (h : OnceOk R fuel N simple o) :
    OnceOk R fuel N simple (.tap o ms) := by
  intro e p ρ he hsim
  simp only [gen, fin, Bool.false_eq_true, if_false, eval]
  rw [h e _ ρ he hsim, bind_assoc']

theorem once_custom {c : Conv Val} (h : OnceOk R fuel N simple c) : OnceOk R fuel N simple (.mutCustom c) := by
  intro e p ρ he hsim
  simp only [gen, fin, Bool.false_eq_true, if_false]
  rw [h e _ ρ he hsim]

theorem once_pipe {a b : Conv Val} (ha : a.once simple = true) (hb : b.once true = true)
    (h : OnceOk R fuel N simple a) (h' : OnceOk R fuel N true b) : OnceOk R fuel N simple (.pipe a b) := by
  intro e p ρ he hsim
  rw [gen_pipe, attachTo_sub (sub_once true b hb false _ _)]
  rw [h' _ _ ρ (notStr_once simple a ha e _ he) (by simp), h e _ ρ he hsim, bind_assoc']
  congr 1
  funext x
  rw [gen_pipe, attachTo_sub (sub_once true b hb false _ _)]
  rw [h' _ _ ρ (notStr_once simple a ha _ _ (by trivial)) (by simp)]
  have : Alike N e (.given (render N e) x) := Or.inr ⟨by simp only [render], he, by trivial⟩
  rw [(alike_gen false a (p ++ [0]) this).text]

theorem once_head {c : Conv Val} {cs : List (Conv Val)} (h : OnceOk R fuel N simple c)
    (hi : cs.all Conv.inert = true) : OnceAll R fuel N simple (c :: cs) := by
  intro e p n ρ he hsim
  simp only [genAll, evalAll]
  rw [h e _ ρ he hsim, bind_assoc']
  congr 1
  funext x
  rw [inert_genAll hi (.given (render N e) x) e]

theorem once_tail {c : Conv Val} {cs : List (Conv Val)} (hc : c.isNaive = true)
    (h : OnceAll R fuel N simple cs) : OnceAll R fuel N simple (c :: cs) := by
  intro e p n ρ he hsim
  cases c <;> simp [Conv.isNaive] at hc
  simp only [genAll, evalAll, gen, fin, Bool.false_eq_true, if_false, eval, pure_bind']
  rw [h e _ _ ρ he hsim, bind_assoc']

mutual

theorem once_ok : ∀ (simple : Bool) (c : Conv Val), c.once simple = true → OnceOk R fuel N simple c
  | _, .this, _ => once_this
  | b, .lookup attr s idx, h => by
    simp only [Conv.once, Bool.and_eq_true] at h
    exact once_lookup attr (once_ok b s h.1) h.2
  | _, .lookupD attr s idx d, h => by
    cases s <;> simp [Conv.once] at h
    exact once_lookupD attr idx h
  | b, .call s as kw, h => once_call kw (by
      simp only [Conv.once, Bool.or_eq_true, Bool.and_eq_true] at h
      exact h.imp (fun h => ⟨once_ok b s h.1, h.2⟩) (fun h => ⟨h.1, once_args b as h.2⟩))
  | _, .boolop isAnd [], h => by simp [Conv.once, onceHead] at h
  | b, .boolop isAnd (c :: cs), h => by
    simp only [Conv.once, onceHead, Bool.and_eq_true] at h
    exact once_boolop isAnd (once_ok b c h.1) h.2
  | _, .eqs [], h => by simp [Conv.once, onceHead] at h
  | b, .eqs (c :: cs), h => by
    simp only [Conv.once, onceHead, Bool.and_eq_true] at h
    exact once_eqs (once_ok b c h.1) h.2
  | b, .not a, h => once_not (once_ok b a (by simpa only [Conv.once] using h))
  | b, .bin o x y, h => once_bin o (by
      simp only [Conv.once, Bool.or_eq_true, Bool.and_eq_true] at h
      exact h.imp (fun h => ⟨once_ok b x h.1, h.2⟩) (fun h => ⟨h.1, once_ok b y h.2⟩))
  | b, .neg a, h => once_neg (once_ok b a (by simpa only [Conv.once] using h))
  | b, .ifc c t f noCache, h => by
    simp only [Conv.once, Bool.and_eq_true, Bool.or_eq_true, Bool.not_eq_true'] at h
    obtain ⟨⟨h1, rfl⟩, h3⟩ := h
    exact once_ifc h1 (once_ok true c h1) h3
  | b, .comp k item value hasCond cond sort, h => once_comp k item value hasCond cond sort (by
      rintro ⟨h1, h2⟩
      simp [Conv.once, h1, h2] at h)
  | b, .coll k items, h => once_coll k (by
      simp only [Conv.once, Bool.or_eq_true, Bool.and_eq_true] at h
      refine h.imp id (fun h => ⟨once_args b items h.1, ?_⟩)
      rintro rfl
      simp [onceArgs] at h)
  | b, .dict kvs, h => once_dict (by
      simp only [Conv.once, Bool.or_eq_true, Bool.and_eq_true] at h
      exact h.imp id (fun h => once_args b kvs h.1))
  | b, .caching c name labels convs, h =>
    once_caching name labels convs (once_ok b c (by simpa only [Conv.once] using h))
  | b, .tap o ms, h => once_tap ms (once_ok b o (by simpa only [Conv.once] using h))
  | b, .mutCustom c, h => once_custom (once_ok b c (by simpa only [Conv.once] using h))
  | b, .pipe x y, h => by
    simp only [Conv.once, Bool.and_eq_true] at h
    exact once_pipe h.1 h.2 (once_ok b x h.1) (once_ok true y h.2)
  | _, .naive _, h => by simp [Conv.once] at h
  | _, .arg _, h => by simp [Conv.once] at h
  | _, .label _, h => by simp [Conv.once] at h
  | _, .opt _ _, h => by simp [Conv.once] at h
  | _, .mutSetItem _ _, h => by simp [Conv.once] at h
  | _, .mutSetAttr _ _, h => by simp [Conv.once] at h
  | _, .mutDelItem _, h => by simp [Conv.once] at h
  | _, .mutDelAttr _, h => by simp [Conv.once] at h

theorem once_args : ∀ (simple : Bool) (cs : List (Conv Val)), onceArgs simple cs = true →
    OnceAll R fuel N simple cs
  | _, [], h => by simp [onceArgs] at h
  | b, c :: cs, h => by
    simp only [onceArgs, Bool.or_eq_true, Bool.and_eq_true] at h
    rcases h with h | h
    · exact once_head (once_ok b c h.1) h.2
    · exact once_tail h.1 (once_args b cs h.2)

end

end

end Verif.Expr
