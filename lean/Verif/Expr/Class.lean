import Verif.Expr.Final

/-!
# Expressions: conversions meeting the side conditions by their form

`Conv.ok` is a check on the tree of a conversion.  Conversions passing it meet `Good` on every input.
-/

set_option autoImplicit false

namespace Verif.Expr

section
variable {Val U Err : Type}

/-- The object of a lookup whose text is longer than the text of the input. -/
def Conv.grows : Conv Val → Bool
  | .lookup _ s (_ :: _) => s.once true
  | .call s _ _ => s.once true
  | _ => false

/-- The text of the code is not simple. -/
def Conv.complex : Conv Val → Bool
  | .lookup _ _ (_ :: _) => true
  | .call (.naive _) _ _ => true
  | .call (.lookup _ _ (_ :: _)) _ _ => true
  | _ => false

/-- The code is no string constant. -/
def Conv.noStr : Conv Val → Bool
  | .naive (.str _) => false
  | .lookup _ s [] => s.noStr
  | .mutCustom c => c.noStr
  | .pipe a b => a.noStr && b.noStr
  | _ => true

/-- The input itself. -/
def Conv.isThis : Conv Val → Bool
  | .this => true
  | _ => false

mutual

/-- A check on the form of a conversion.  `w`: the input code is a variable; `tp`: truth tests have no
effects and raise nothing. -/
def Conv.ok (tp : Bool) (w : Bool) : Conv Val → Bool
  | .this => true
  | .naive _ => true
  | .arg _ => true
  | .label _ => true
  | .lookup _ s idx => s.ok tp w && okAll tp w idx
  | .lookupD _ s idx d => s.ok tp w && okAll tp true idx && d.ok tp w && (argsAll idx).isEmpty &&
      (w || s.isThis || s.grows)
  | .call s as _ => s.ok tp w && okAll tp w as
  | .boolop _ as => okAll tp w as
  | .eqs as => okAll tp w as
  | .not a => a.ok tp w
  | .bin _ a b => a.ok tp w && b.ok tp w
  | .neg a => a.ok tp w
  | .ifc c t f _ => c.ok tp w && t.ok tp w && f.ok tp w && (w || (tp && c.strict))
  | .comp k i v _ c sort => i.ok tp true && v.ok tp true && c.ok tp true && !(k == .set && sort.isSome)
  | .coll k items => !(items.isEmpty && (k == .tuple || k == .set)) &&
      (if items.any Conv.isOpt then okItems tp items else okAll tp w items)
  | .dict kvs => if kvs.any Conv.isOpt then okItems tp kvs else okAll tp w kvs
  | .opt _ _ => false
  | .caching c name labels convs => c.ok tp w && !labels.contains name && !(setsAll convs).contains name &&
      okAll tp false convs
  | .tap o ms => o.ok tp w && okMuts tp ms
  | .mutSetItem _ _ => false
  | .mutSetAttr _ _ => false
  | .mutDelItem _ => false
  | .mutDelAttr _ => false
  | .mutCustom _ => false
  | .pipe a b => a.ok tp w && a.noStr && b.once (!a.complex) && b.ok tp false

/-- The same for several conversions. -/
def okAll (tp : Bool) (w : Bool) : List (Conv Val) → Bool
  | [] => true
  | c :: cs => c.ok tp w && okAll tp w cs

/-- The same for items of collections with optional items; their input is a variable. -/
def okItems (tp : Bool) : List (Conv Val) → Bool
  | [] => true
  | .opt c cond :: cs => c.ok tp true && cond.ok tp true && okItems tp cs
  | c :: cs => c.ok tp true && okItems tp cs

/-- The same for mutations; their input is a variable. -/
def okMuts (tp : Bool) : List (Conv Val) → Bool
  | [] => true
  | .mutSetItem k v :: cs => k.ok tp true && v.ok tp true && okMuts tp cs
  | .mutSetAttr k v :: cs => k.ok tp true && v.ok tp true && okMuts tp cs
  | .mutDelItem k :: cs => k.ok tp true && okMuts tp cs
  | .mutDelAttr k :: cs => k.ok tp true && okMuts tp cs
  | .mutCustom c :: cs => c.ok tp true && okMuts tp cs
  | _ :: _ => false

end

/-- What is asked of the names: variables of comprehensions are words, texts of constants are different from
names of variables. -/
structure NamesOk (N : Names Val) : Prop where
  paramWord : ∀ t, (N.param t).toList.all isWord = true
  constParam : ∀ l t, N.const l ≠ N.param t
  constData : ∀ l, N.const l ≠ "data_"
  constObj : ∀ l, N.const l ≠ "obj_"
  constText : ∀ l, N.const l ≠ ""

/-- A variable: a word, and no text of a constant. -/
structure VarOk (N : Names Val) (x : String) : Prop where
  word : x.toList.all isWord = true
  const : ∀ l, N.const l ≠ x

variable {R : Runtime Val U Err} {fuel : Nat} {N : Names Val} {A : Env Val}

/-! ## Texts -/

/-- A word. -/
def wordy (s : String) : Bool := s.toList.all isWord

theorem wordy_append (a b : String) : wordy (a ++ b) = (wordy a && wordy b) := by
  simp [wordy, String.toList_append, List.all_append]

theorem wordy_end {a b : String} (hb : wordy b = false) : wordy (a ++ b) = false := by
  rw [wordy_append, hb, Bool.and_false]

theorem wordy_mid {a b c : String} (hb : wordy b = false) : wordy (a ++ b ++ c) = false := by
  rw [wordy_append, wordy_end hb, Bool.false_and]

theorem wordy_sortText (k : Kind) (x : String) (sort : Option (Lit Val × Bool)) (h : wordy x = false) :
    wordy (sortText N k x sort) = false := by
  unfold sortText
  split
  · exact h
  · cases k <;> exact wordy_end (by decide)

/-- A code whose text is a word. -/
theorem word_cases (g : PyExpr Val) (h : wordy (render N g) = true) :
    (∃ x, g = .name x) ∨ (∃ l, g = .const l) ∨ (∃ m, g = .bad m) ∨ ∃ t v, g = .given t v := by
  have no : ∀ {s : String}, wordy s = true → wordy s = false → False := fun h h' => by
    rw [h'] at h; cases h
  cases g with
  | name x => exact Or.inl ⟨x, rfl⟩
  | const l => exact Or.inr (Or.inl ⟨l, rfl⟩)
  | bad m => exact Or.inr (Or.inr (Or.inl ⟨m, rfl⟩))
  | given t v => exact Or.inr (Or.inr (Or.inr ⟨t, v, rfl⟩))
  | sub e i =>
    simp only [render] at h
    exact (no h (wordy_end (by decide))).elim
  | dot e a =>
    simp only [render] at h
    exact (no h (wordy_mid (by decide))).elim
  | bin o a b =>
    exfalso
    cases o <;> (simp only [render] at h; exact no h (wordy_end (by decide)))
  | comp k item value var iter hasCond cond sort =>
    exfalso
    simp only [render] at h
    refine no h (wordy_sortText k _ sort ?_)
    cases k
    · exact wordy_end (by decide)
    · simp only []
      split <;> exact wordy_end (by decide)
    · exact wordy_end (by decide)
    · simp only []
      split <;> exact wordy_end (by decide)
  | display k items =>
    exfalso
    cases k <;> (simp only [render] at h; exact no h (wordy_end (by decide)))
  | setitem o k v =>
    simp only [render] at h
    refine (no h ?_).elim
    rw [wordy_append, wordy_end (by decide), Bool.false_and]
  | _ =>
    simp only [render] at h
    exact (no h (wordy_end (by decide))).elim

theorem simple_of_word {x : String} (h : wordy x = true) : inputIsSimple x = true := by
  unfold wordy at h
  unfold inputIsSimple
  have hall : ∀ cs : List Char, cs.all isWord = true →
      cs.all (fun c => isWord c || c == '"' || c == '\'') = true := by
    intro cs hcs
    simp only [List.all_eq_true] at hcs ⊢
    intro c hc
    simp [hcs c hc]
  dsimp only
  split
  · refine hall _ ?_
    simp only [List.all_eq_true] at h ⊢
    intro c hc
    exact h c (List.drop_subset _ _ (List.dropLast_subset _ hc))
  · exact hall _ h

/-- A text with a bracket, a dot or a blank in it is not simple. -/
theorem complex_of_mem {s : String} (c : Char) (hc : c ∈ s.toList) (h1 : c ≠ '(') (h2 : c ≠ ')')
    (h3 : (isWord c || c == '"' || c == '\'') = false) : inputIsSimple s = false := by
  unfold inputIsSimple
  rw [Bool.eq_false_iff]
  intro h
  simp only [List.all_eq_true] at h
  have hmem : c ∈ (if (s.toList.head? == some '(' && s.toList.getLast? == some ')') = true then
      (s.toList.drop 1).dropLast else s.toList) := by
    split
    · rename_i hh
      simp only [Bool.and_eq_true, beq_iff_eq] at hh
      cases hs : s.toList with
      | nil => rw [hs] at hc; cases hc
      | cons a l =>
        rw [hs] at hh hc
        simp only [List.head?_cons, Option.some.injEq] at hh
        have hcl : c ∈ l := by
          rcases List.mem_cons.1 hc with h | h
          · exact absurd (h.trans hh.1) h1
          · exact h
        simp only [List.drop_succ_cons, List.drop_zero]
        have hne : l ≠ [] := by rintro rfl; cases hcl
        have hlast : l.getLast hne = ')' := by
          have := hh.2
          rw [List.getLast?_cons, List.getLast?_eq_some_getLast hne] at this
          simpa using this
        have := List.dropLast_concat_getLast hne
        rw [← this] at hcl
        rcases List.mem_append.1 hcl with h | h
        · exact h
        · rw [hlast] at h
          exact absurd (List.mem_singleton.1 h) h2
    · exact hc
  rw [h c hmem] at h3
  cases h3

theorem mem_append_right' {c : Char} {a b : String} (h : c ∈ b.toList) : c ∈ (a ++ b).toList := by
  rw [String.toList_append]
  exact List.mem_append_right _ h

theorem mem_append_left' {c : Char} {a b : String} (h : c ∈ a.toList) : c ∈ (a ++ b).toList := by
  rw [String.toList_append]
  exact List.mem_append_left _ h

/-- A call is not simple. -/
theorem complex_call {f a : String} (hf : f ≠ "") : inputIsSimple (f ++ "(" ++ a ++ ")") = false := by
  unfold inputIsSimple
  rw [Bool.eq_false_iff]
  intro h
  simp only [List.all_eq_true] at h
  have hmem : '(' ∈ (if ((f ++ "(" ++ a ++ ")").toList.head? == some '(' &&
      (f ++ "(" ++ a ++ ")").toList.getLast? == some ')') = true then
      ((f ++ "(" ++ a ++ ")").toList.drop 1).dropLast else (f ++ "(" ++ a ++ ")").toList) := by
    have h1 : "(".toList = ['('] := rfl
    have h2 : ")".toList = [')'] := rfl
    simp only [String.toList_append, h1, h2]
    cases hs : f.toList with
    | nil => exact absurd (String.toList_inj.1 (by rw [hs]; rfl)) hf
    | cons c l =>
      split
      · have : (c :: l ++ ['('] ++ a.toList ++ [')']).drop 1 = (l ++ '(' :: a.toList) ++ [')'] := by simp
        rw [this, List.dropLast_concat]
        simp
      · simp
  have := h _ hmem
  exact absurd this (by decide)

theorem isIn_lit_wrapItem (attr : Bool) (b i : PyExpr Val) :
    ∃ c : Char, c ∈ (render N (wrapItem attr b i)).toList ∧ c ≠ '(' ∧ c ≠ ')' ∧
      (isWord c || c == '"' || c == '\'') = false := by
  unfold wrapItem
  cases attr with
  | false =>
    refine ⟨'[', ?_, by decide, by decide, by decide⟩
    simp only [Bool.false_eq_true, if_false, render]
    exact mem_append_left' (mem_append_left' (mem_append_right' (by decide)))
  | true =>
    have h2 : ∀ i : PyExpr Val, ∃ c : Char, c ∈ (render N (.getattr b i)).toList ∧ c ≠ '(' ∧ c ≠ ')' ∧
      (isWord c || c == '"' || c == '\'') = false := by
      intro i
      refine ⟨',', ?_, by decide, by decide, by decide⟩
      simp only [render]
      exact mem_append_left' (mem_append_left' (mem_append_right' (by decide)))
    simp only [if_true]
    split
    · split
      · refine ⟨'.', ?_, by decide, by decide, by decide⟩
        simp only [render]
        exact mem_append_left' (mem_append_right' (by decide))
      · exact h2 _
    · exact h2 _

theorem Sub.mem {a b : String} (h : Sub a b) {c : Char} (hc : c ∈ a.toList) : c ∈ b.toList := by
  obtain ⟨l, r, rfl⟩ := h
  exact mem_append_left' (mem_append_right' hc)

/-- A chain of lookups is not simple. -/
theorem complex_wrapAll (attr : Bool) (b i : PyExpr Val) (is : List (PyExpr Val)) :
    ∃ c : Char, c ∈ (render N (wrapAll attr b (i :: is))).toList ∧ c ≠ '(' ∧ c ≠ ')' ∧
      (isWord c || c == '"' || c == '\'') = false := by
  obtain ⟨c, h1, h2⟩ := isIn_lit_wrapItem (N := N) attr b i
  exact ⟨c, (sub_wrapAll attr is _).mem h1, h2⟩

theorem complex_attach (a b : PyExpr Val) : inputIsSimple (render N (.attach a b)) = false := by
  refine complex_of_mem ' ' ?_ (by decide) (by decide) (by decide)
  simp only [render]
  exact mem_append_left' (mem_append_left' (mem_append_right' (by decide)))

theorem complex_text (hN : NamesOk N) (esc : Bool) (a : Conv Val) (h : a.complex = true) (e : PyExpr Val)
    (p : List Nat) : inputIsSimple (render N (gen N esc a e p)) = false := by
  have key : inputIsSimple (render N (gen N false a e p)) = false →
      (∀ esc, gen N esc a e p = fin N esc e (gen N false a e p)) →
      inputIsSimple (render N (gen N esc a e p)) = false := by
    intro h1 h2
    rw [h2 esc]
    unfold fin
    split
    · unfold attachTo
      split
      · exact complex_attach _ _
      · exact h1
    · exact h1
  cases a with
  | lookup attr s idx =>
    refine key ?_ (fun _ => rfl)
    cases idx with
    | nil => simp [Conv.complex] at h
    | cons i is =>
      simp only [gen, fin, Bool.false_eq_true, if_false, genAll]
      obtain ⟨c, h1, h2, h3, h4⟩ := complex_wrapAll (N := N) attr (gen N false s e (p ++ [0]))
        (gen N false i e (p ++ [1] ++ [0])) (genAll N is e (p ++ [1]) (0 + 1))
      exact complex_of_mem c h1 h2 h3 h4
  | call s as kw =>
    refine key ?_ (fun _ => rfl)
    have hf : render N (gen N false s e (p ++ [0])) ≠ "" := by
      cases s with
      | naive l =>
        simp only [gen, fin, Bool.false_eq_true, if_false, render]
        exact hN.constText l
      | lookup attr s idx =>
        cases idx with
        | nil => simp [Conv.complex] at h
        | cons i is =>
          simp only [gen, fin, Bool.false_eq_true, if_false, genAll]
          obtain ⟨c, h1, _⟩ := complex_wrapAll (N := N) attr (gen N false s e (p ++ [0] ++ [0]))
            (gen N false i e (p ++ [0] ++ [1] ++ [0])) (genAll N is e (p ++ [0] ++ [1]) (0 + 1))
          intro h0
          rw [h0] at h1
          cases h1
      | _ => simp [Conv.complex] at h
    simp only [gen, fin, Bool.false_eq_true, if_false, render]
    exact complex_call hf
  | _ => simp [Conv.complex] at h

/-! ## Objects of lookups with default -/

theorem len_wrapItem (attr : Bool) (b i : PyExpr Val) :
    (render N b).length < (render N (wrapItem attr b i)).length := by
  have h0 : ".".length = 1 := rfl
  have h1 : "[".length = 1 := rfl
  have h2 : ")".length = 1 := rfl
  unfold wrapItem
  cases attr with
  | false =>
    simp only [Bool.false_eq_true, if_false, render, String.length_append, h1]
    omega
  | true =>
    simp only [if_true]
    split
    · split
      · simp only [render, String.length_append, h0]
        omega
      · simp only [render, String.length_append, h2]
        omega
    · simp only [render, String.length_append, h2]
      omega

theorem Sub.len {a b : String} (h : Sub a b) : a.length ≤ b.length := by
  obtain ⟨l, r, rfl⟩ := h
  simp only [String.length_append]
  omega

theorem grows_text {s : Conv Val} (h : s.grows = true) (e : PyExpr Val) (p : List Nat) :
    render N (gen N false s e p) ≠ render N e := by
  intro heq
  have hlen := congrArg String.length heq
  cases s with
  | lookup attr s idx =>
    cases idx with
    | nil => simp [Conv.grows] at h
    | cons i is =>
      simp only [Conv.grows] at h
      simp only [gen, fin, Bool.false_eq_true, if_false, genAll, wrapAll] at hlen
      have l1 := (sub_once (N := N) true s h false e (p ++ [0])).len
      have l2 := len_wrapItem (N := N) attr (gen N false s e (p ++ [0])) (gen N false i e (p ++ [1] ++ [0]))
      have l3 := (sub_wrapAll (N := N) attr (genAll N is e (p ++ [1]) (0 + 1))
        (wrapItem attr (gen N false s e (p ++ [0])) (gen N false i e (p ++ [1] ++ [0])))).len
      omega
  | call s as kw =>
    simp only [Conv.grows] at h
    simp only [gen, fin, Bool.false_eq_true, if_false, render, String.length_append] at hlen
    have l1 := (sub_once (N := N) true s h false e (p ++ [0])).len
    have h2 : ")".length = 1 := rfl
    omega
  | _ => simp [Conv.grows] at h

/-- Code with a bracket, a dot, or such is no word. -/
theorem not_wordy_of_mem {s : String} {c : Char} (hc : c ∈ s.toList)
    (h : (isWord c || c == '"' || c == '\'') = false) : wordy s = false := by
  rw [Bool.eq_false_iff]
  intro hw
  simp only [wordy, List.all_eq_true] at hw
  rw [hw c hc] at h
  cases h

theorem not_wordy_lookup (attr : Bool) (s i : Conv Val) (is : List (Conv Val)) (e : PyExpr Val) (p : List Nat) :
    wordy (render N (gen N false (.lookup attr s (i :: is)) e p)) = false := by
  simp only [gen, fin, Bool.false_eq_true, if_false, genAll]
  obtain ⟨c, h1, h2, h3, h4⟩ := complex_wrapAll (N := N) attr (gen N false s e (p ++ [0]))
    (gen N false i e (p ++ [1] ++ [0])) (genAll N is e (p ++ [1]) (0 + 1))
  exact not_wordy_of_mem h1 h4

theorem word_false {g : PyExpr Val} (h : wordy (render N g) = true) (h1 : ∀ x, g ≠ .name x)
    (h2 : ∀ l, g ≠ .const l) (h3 : ∀ m, g ≠ .bad m) (h4 : ∀ t v, g ≠ .given t v) : False := by
  rcases word_cases g h with ⟨x, hx⟩ | ⟨x, hx⟩ | ⟨x, hx⟩ | ⟨x, v, hx⟩
  · exact h1 x hx
  · exact h2 x hx
  · exact h3 x hx
  · exact h4 x v hx

/-- Code which is none of the four kinds above. -/
def PyExpr.compound : PyExpr Val → Bool
  | .name _ => false
  | .const _ => false
  | .bad _ => false
  | .given _ _ => false
  | _ => true

theorem word_compound {g : PyExpr Val} (h : wordy (render N g) = true) (hg : g.compound = true) : False := by
  rcases word_cases g h with ⟨x, rfl⟩ | ⟨x, rfl⟩ | ⟨x, rfl⟩ | ⟨x, v, rfl⟩ <;> cases hg

/-- A conversion evaluating its input once, whose text is a word: it is the input. -/
theorem once_word : ∀ (simple : Bool) (b : Conv Val), b.once simple = true → ∀ (e : PyExpr Val) (p : List Nat),
    wordy (render N (gen N false b e p)) = true →
    render N (gen N false b e p) = render N e ∧ ∀ v, den R fuel A b v = pure v
  | simple, b, hb, e, p, hw => by
    cases b with
    | this => exact ⟨rfl, fun v => by simp only [den]⟩
    | lookup attr s idx =>
      cases idx with
      | nil =>
        simp only [Conv.once, Bool.and_eq_true] at hb
        obtain ⟨h1, h2⟩ := once_word simple s hb.1 e (p ++ [0]) hw
        exact ⟨h1, fun v => by simp only [den, h2, pure_bind', denPath]⟩
      | cons i is =>
        rw [not_wordy_lookup] at hw
        cases hw
    | mutCustom c =>
      simp only [Conv.once] at hb
      obtain ⟨h1, h2⟩ := once_word simple c hb e (p ++ [0]) hw
      exact ⟨h1, fun v => by simp only [den, h2]⟩
    | pipe a b =>
      simp only [Conv.once, Bool.and_eq_true] at hb
      rw [gen_pipe, attachTo_sub (sub_once true b hb.2 false _ _)] at hw ⊢
      obtain ⟨h1, h2⟩ := once_word true b hb.2 _ _ hw
      rw [h1] at hw
      obtain ⟨h3, h4⟩ := once_word simple a hb.1 _ _ hw
      exact ⟨h1.trans h3, fun v => by simp only [den, h4, h2, pure_bind']⟩
    | comp k item value hasCond cond sort =>
      exfalso
      have hk : ¬ (k = .set ∧ sort.isSome = true) := by
        rintro ⟨h1, h2⟩
        simp [Conv.once, h1, h2] at hb
      simp only [gen, fin, Bool.false_eq_true, if_false, if_neg hk] at hw
      exact word_compound hw rfl
    | coll k items =>
      exfalso
      simp only [gen, fin, Bool.false_eq_true, if_false] at hw
      by_cases ho : items.any Conv.isOpt = true
      · simp only [ho, if_true] at hw
        exact word_compound hw rfl
      · simp only [Conv.once, ho, Bool.false_or, Bool.and_eq_true] at hb
        have hne : items.isEmpty = false := by
          cases items
          · simp [onceArgs] at hb
          · rfl
        simp only [ho, if_false, hne, Bool.false_and, Bool.false_eq_true] at hw
        exact word_compound hw rfl
    | dict kvs =>
      exfalso
      simp only [gen, fin, Bool.false_eq_true, if_false] at hw
      split at hw <;> exact word_compound hw rfl
    | naive => simp [Conv.once] at hb
    | arg => simp [Conv.once] at hb
    | opt => simp [Conv.once] at hb
    | _ => exact (word_compound hw rfl).elim

/-- With a variable as input: a conversion with the same text is the input. -/
theorem this_like {tp : Bool} {x : String} (hx : VarOk N x) : ∀ (s : Conv Val), s.ok tp true = true →
    x ∉ s.args → ∀ (p : List Nat), render N (gen N false s (.name x) p) = x →
    ∀ v, den R fuel A s v = pure v
  | s, hs, ha, p, ht => by
    have hw : wordy (render N (gen N false s (.name x) p)) = true := by
      rw [ht]
      exact hx.word
    cases s with
    | this => exact fun v => by simp only [den]
    | naive l => exact absurd ht (hx.const l)
    | arg n =>
      have : n = x := ht
      subst this
      simp [Conv.args] at ha
    | lookup attr s idx =>
      cases idx with
      | nil =>
        simp only [Conv.ok, Bool.and_eq_true] at hs
        simp only [Conv.args, argsAll, List.append_nil] at ha
        have h := this_like hx s hs.1 ha (p ++ [0]) ht
        exact fun v => by simp only [den, h, pure_bind', denPath]
      | cons i is =>
        rw [not_wordy_lookup] at hw
        cases hw
    | pipe a b =>
      simp only [Conv.ok, Bool.and_eq_true] at hs
      obtain ⟨⟨⟨h1, h2⟩, h3⟩, h4⟩ := hs
      rw [gen_pipe, attachTo_sub (sub_once _ b h3 false _ _)] at hw ht
      obtain ⟨h5, h6⟩ := once_word (R := R) (fuel := fuel) (A := A) _ b h3 _ _ hw
      rw [h5] at ht
      have h := this_like hx a h1 (fun hn => ha (List.mem_append_left _ hn)) (p ++ [0]) ht
      exact fun v => by simp only [den, h, h6, pure_bind']
    | comp k item value hasCond cond sort =>
      exfalso
      have hk : ¬ (k = .set ∧ sort.isSome = true) := by
        rintro ⟨h1, h2⟩
        simp [Conv.ok, h1, h2] at hs
      simp only [gen, fin, Bool.false_eq_true, if_false, if_neg hk] at hw
      exact word_compound hw rfl
    | coll k items =>
      exfalso
      simp only [Conv.ok, Bool.and_eq_true] at hs
      have hs1 := hs.1
      simp only [gen, fin, Bool.false_eq_true, if_false] at hw
      split at hw
      · exact word_compound hw rfl
      · split at hw
        · rename_i h1
          simp only [Bool.and_eq_true] at h1
          simp [h1.1, h1.2] at hs1
        · exact word_compound hw rfl
    | dict kvs =>
      exfalso
      simp only [gen, fin, Bool.false_eq_true, if_false] at hw
      split at hw <;> exact word_compound hw rfl
    | opt => simp [Conv.ok] at hs
    | mutCustom => simp [Conv.ok] at hs
    | _ => exact (word_compound hw rfl).elim

theorem notStr_attachTo {a r : PyExpr Val} (h : r.notStr) : (attachTo N a r).notStr := by
  unfold attachTo
  split
  · trivial
  · exact h

theorem notStr_gen (esc : Bool) : ∀ (c : Conv Val) (e : PyExpr Val) (p : List Nat), c.noStr = true → e.notStr →
    (gen N esc c e p).notStr
  | c, e, p, hc, he => by
    have key : ∀ r : PyExpr Val, r.notStr → (fin N esc e r).notStr := by
      intro r hr
      unfold fin
      split
      · exact notStr_attachTo hr
      · exact hr
    cases c with
    | this => exact key _ he
    | naive l =>
      refine key _ ?_
      cases l <;> first | trivial | simp [Conv.noStr] at hc
    | lookup attr s idx =>
      refine key _ ?_
      cases idx with
      | nil => exact notStr_gen false s e (p ++ [0]) (by simpa only [Conv.noStr] using hc) he
      | cons i is =>
        simp only [genAll, wrapAll]
        refine notStr_wrapAll attr _ _ ?_
        unfold wrapItem
        cases attr with
        | false => trivial
        | true =>
          simp only [if_true]
          split
          · split <;> trivial
          · trivial
    | mutCustom c => exact key _ (notStr_gen false c e (p ++ [0]) (by simpa only [Conv.noStr] using hc) he)
    | pipe a b =>
      rw [gen_pipe]
      refine notStr_attachTo ?_
      simp only [Conv.noStr, Bool.and_eq_true] at hc
      exact notStr_gen false b _ _ hc.2 (notStr_gen esc a e (p ++ [0]) hc.1 he)
    | comp =>
      simp only [gen]
      refine key _ ?_
      split <;> trivial
    | coll =>
      simp only [gen]
      refine key _ ?_
      split
      · trivial
      · split <;> trivial
    | dict =>
      simp only [gen]
      refine key _ ?_
      split <;> trivial
    | _ => exact key _ trivial

mutual

theorem once_mono : ∀ (b : Conv Val), b.once true = true → b.once false = true
  | .this, h => h
  | .lookup _ s _, h => by
    simp only [Conv.once, Bool.and_eq_true] at h ⊢
    exact ⟨once_mono s h.1, h.2⟩
  | .lookupD _ .this _ _, h => h
  | .call s as _, h => by
    simp only [Conv.once, Bool.and_eq_true, Bool.or_eq_true] at h ⊢
    exact h.imp (fun h => ⟨once_mono s h.1, h.2⟩) (fun h => ⟨h.1, onceArgs_mono as h.2⟩)
  | .boolop _ as, h => by
    simp only [Conv.once] at h ⊢
    exact onceHead_mono as h
  | .eqs as, h => by
    simp only [Conv.once] at h ⊢
    exact onceHead_mono as h
  | .not a, h => by
    simp only [Conv.once] at h ⊢
    exact once_mono a h
  | .bin _ a b, h => by
    simp only [Conv.once, Bool.and_eq_true, Bool.or_eq_true] at h ⊢
    exact h.imp (fun h => ⟨once_mono a h.1, h.2⟩) (fun h => ⟨h.1, once_mono b h.2⟩)
  | .neg a, h => by
    simp only [Conv.once] at h ⊢
    exact once_mono a h
  | .ifc c t f noCache, h => by
    simp only [Conv.once, Bool.and_eq_true, Bool.not_false, Bool.true_or, and_true] at h ⊢
    exact h.1
  | .comp _ _ _ _ _ _, h => h
  | .coll _ items, h => by
    simp only [Conv.once, Bool.and_eq_true, Bool.or_eq_true] at h ⊢
    exact h.imp id (fun h => ⟨onceArgs_mono items h.1, h.2⟩)
  | .dict kvs, h => by
    simp only [Conv.once, Bool.and_eq_true, Bool.or_eq_true] at h ⊢
    exact h.imp id (fun h => ⟨onceArgs_mono kvs h.1, h.2⟩)
  | .caching c _ _ _, h => by
    simp only [Conv.once] at h ⊢
    exact once_mono c h
  | .tap o _, h => by
    simp only [Conv.once] at h ⊢
    exact once_mono o h
  | .mutCustom c, h => by
    simp only [Conv.once] at h ⊢
    exact once_mono c h
  | .pipe a b, h => by
    simp only [Conv.once, Bool.and_eq_true] at h ⊢
    exact ⟨once_mono a h.1, h.2⟩

theorem onceArgs_mono : ∀ (as : List (Conv Val)), onceArgs true as = true → onceArgs false as = true
  | [], h => h
  | c :: cs, h => by
    simp only [onceArgs, Bool.and_eq_true, Bool.or_eq_true] at h ⊢
    exact h.imp (fun h => ⟨once_mono c h.1, h.2⟩) (fun h => ⟨h.1, onceArgs_mono cs h.2⟩)

theorem onceHead_mono : ∀ (as : List (Conv Val)), onceHead true as = true → onceHead false as = true
  | [], h => h
  | c :: cs, h => by
    simp only [onceHead, Bool.and_eq_true] at h ⊢
    exact ⟨once_mono c h.1, h.2⟩

end

/-! ## The check implies the side conditions -/

/-- Names of input arguments differ from names the code uses. -/
def ArgsOk (N : Names Val) (as : List String) : Prop := ∀ n ∈ as, n ≠ "data_" ∧ ∀ t, N.param t ≠ n

/-- The input code: no string constant; a variable, if `w`, with no input argument of that name. -/
def InOk (N : Names Val) (w : Bool) (e : PyExpr Val) (as : List String) : Prop :=
  e.notStr ∧ (w = true → ∃ x, e = .name x ∧ VarOk N x ∧ x ∉ as)

theorem ArgsOk.mono {as bs : List String} (h : ArgsOk N bs) (hs : ∀ n ∈ as, n ∈ bs) : ArgsOk N as :=
  fun n hn => h n (hs n hn)

theorem InOk.mono {w : Bool} {e : PyExpr Val} {as bs : List String} (h : InOk N w e bs)
    (hs : ∀ n ∈ as, n ∈ bs) : InOk N w e as :=
  ⟨h.1, fun hw => by
    obtain ⟨x, h1, h2, h3⟩ := h.2 hw
    exact ⟨x, h1, h2, fun hn => h3 (hs _ hn)⟩⟩

theorem InOk.data (hN : NamesOk N) {w : Bool} {as : List String} (ha : ArgsOk N as) :
    InOk N w (.name "data_") as :=
  ⟨trivial, fun _ => ⟨"data_", rfl, ⟨by decide, hN.constData⟩, fun h => (ha _ h).1 rfl⟩⟩

theorem InOk.obj (hN : NamesOk N) {w : Bool} : InOk N w (.name "obj_") [] :=
  ⟨trivial, fun _ => ⟨"obj_", rfl, ⟨by decide, hN.constObj⟩, fun h => by cases h⟩⟩

theorem InOk.param (hN : NamesOk N) {w : Bool} {as : List String} (ha : ArgsOk N as) (t : String) :
    InOk N w (.name (N.param t)) as :=
  ⟨trivial, fun _ => ⟨N.param t, rfl, ⟨hN.paramWord t, fun l => hN.constParam l t⟩, fun h => (ha _ h).2 t rfl⟩⟩

/-- What is asked of the truth test, if the check relies on it. -/
def TruthAll (R : Runtime Val U Err) (tp : Bool) (P0 : (String → Option Val) → U → Prop) : Prop :=
  tp = true → ∀ v, TruthOk R P0 v

variable {P0 : (String → Option Val) → U → Prop}

theorem opt_isOpt_or (c : Conv Val) : (∃ a b, c = .opt a b) ∨ ∀ a b, c ≠ .opt a b := by
  cases c with
  | opt a b => exact Or.inl ⟨a, b, rfl⟩
  | _ => exact Or.inr (fun a b h => by cases h)

set_option maxHeartbeats 1600000 in
mutual

theorem good_of_ok {tp : Bool} (hN : NamesOk N) (ht : TruthAll R tp P0) : ∀ (c : Conv Val) (esc w : Bool)
    (e : PyExpr Val) (p : List Nat) (v : Val), c.ok tp w = true → ArgsOk N c.args → InOk N w e c.args →
    Good R fuel N A P0 esc c e p v
  | .this, esc, w, e, p, v, hc, ha, he => trivial
  | .naive _, esc, w, e, p, v, hc, ha, he => trivial
  | .arg _, esc, w, e, p, v, hc, ha, he => trivial
  | .label _, esc, w, e, p, v, hc, ha, he => trivial
  | .lookup _ s idx, esc, w, e, p, v, hc, ha, he => by
    simp only [Conv.ok, Bool.and_eq_true] at hc
    simp only [Conv.args] at ha he
    simp only [Good]
    exact ⟨good_of_ok hN ht s false w e _ v hc.1 (ha.mono (by simp +contextual)) (he.mono (by simp +contextual)),
      good_all hN ht idx w e _ 0 v hc.2 (ha.mono (by simp +contextual)) (he.mono (by simp +contextual))⟩
  | .lookupD _ s idx d, esc, w, e, p, v, hc, ha, he => by
    simp only [Conv.ok, Bool.and_eq_true] at hc
    obtain ⟨⟨⟨⟨h1, h2⟩, h3⟩, h4⟩, h5⟩ := hc
    simp only [Conv.args] at ha he
    have hidx : argsAll idx = [] := List.isEmpty_iff.1 h4
    simp only [Good]
    refine ⟨good_of_ok hN ht s false w e _ v h1 (ha.mono (by simp +contextual)) (he.mono (by simp +contextual)),
      good_all hN ht idx true _ _ 0 v h2 (ha.mono (by simp +contextual)) (by rw [hidx]; exact InOk.obj hN),
      good_of_ok hN ht d false w e _ v h3 (ha.mono (by simp +contextual)) (he.mono (by simp +contextual)),
      hidx, ?_⟩
    intro heq
    simp only [Bool.or_eq_true] at h5
    rcases h5 with (h5 | h5) | h5
    · subst h5
      obtain ⟨x, rfl, hx, hxa⟩ := he.2 rfl
      exact this_like hx s h1 (fun h => hxa (by simp [h])) _ heq v
    · cases s <;> first | rfl | cases h5
    · exact absurd heq (grows_text h5 e _)
  | .call s as _, esc, w, e, p, v, hc, ha, he => by
    simp only [Conv.ok, Bool.and_eq_true] at hc
    simp only [Conv.args] at ha he
    simp only [Good]
    exact ⟨good_of_ok hN ht s false w e _ v hc.1 (ha.mono (by simp +contextual)) (he.mono (by simp +contextual)),
      good_all hN ht as w e _ 0 v hc.2 (ha.mono (by simp +contextual)) (he.mono (by simp +contextual))⟩
  | .boolop _ as, esc, w, e, p, v, hc, ha, he => by
    simp only [Conv.ok] at hc
    simp only [Conv.args] at ha he
    simp only [Good]
    exact good_all hN ht as w e _ 0 v hc ha he
  | .eqs as, esc, w, e, p, v, hc, ha, he => by
    simp only [Conv.ok] at hc
    simp only [Conv.args] at ha he
    simp only [Good]
    exact good_all hN ht as w e _ 0 v hc ha he
  | .not a, esc, w, e, p, v, hc, ha, he => by
    simp only [Conv.ok] at hc
    simp only [Conv.args] at ha he
    simp only [Good]
    exact good_of_ok hN ht a false w e _ v hc ha he
  | .bin _ a b, esc, w, e, p, v, hc, ha, he => by
    simp only [Conv.ok, Bool.and_eq_true] at hc
    simp only [Conv.args] at ha he
    simp only [Good]
    exact ⟨good_of_ok hN ht a false w e _ v hc.1 (ha.mono (by simp +contextual)) (he.mono (by simp +contextual)),
      good_of_ok hN ht b false w e _ v hc.2 (ha.mono (by simp +contextual)) (he.mono (by simp +contextual))⟩
  | .neg a, esc, w, e, p, v, hc, ha, he => by
    simp only [Conv.ok] at hc
    simp only [Conv.args] at ha he
    simp only [Good]
    exact good_of_ok hN ht a false w e _ v hc ha he
  | .ifc c t f noCache, esc, w, e, p, v, hc, ha, he => by
    simp only [Conv.ok, Bool.and_eq_true] at hc
    obtain ⟨⟨⟨h1, h2⟩, h3⟩, h4⟩ := hc
    simp only [Conv.args] at ha he
    simp only [Good]
    have hcond : InOk N w (ifCond N e p noCache) (c.args ++ t.args ++ f.args) ∧
        InOk N w (ifRes N e p noCache) (c.args ++ t.args ++ f.args) := by
      cases w with
      | true =>
        obtain ⟨x, rfl, hx, hxa⟩ := he.2 rfl
        have hs : inputIsSimple (render N (.name x : PyExpr Val)) = true := simple_of_word hx.word
        simp only [ifCond, ifRes, hs, Bool.true_or, if_true]
        exact ⟨he, he⟩
      | false =>
        refine ⟨⟨?_, fun h => by cases h⟩, ⟨?_, fun h => by cases h⟩⟩
        · unfold ifCond
          split
          · exact he.1
          · trivial
        · unfold ifRes
          split
          · exact he.1
          · trivial
    have hsimple : w = true → inputIsSimple (render N e) = true := by
      intro hw
      obtain ⟨x, rfl, hx, hxa⟩ := he.2 hw
      exact simple_of_word hx.word
    simp only [Bool.or_eq_true, Bool.and_eq_true] at h4
    refine ⟨good_of_ok hN ht c true w _ _ v h1 (ha.mono (by simp +contextual)) (hcond.1.mono (by simp +contextual)),
      good_of_ok hN ht t true w _ _ v h2 (ha.mono (by simp +contextual)) (hcond.2.mono (by simp +contextual)),
      good_of_ok hN ht f true w _ _ v h3 (ha.mono (by simp +contextual)) (hcond.2.mono (by simp +contextual)),
      ?_, ?_⟩
    · exact h4.imp hsimple (fun h => ht h.1 v)
    · exact h4.imp hsimple (fun h => Or.inr (Or.inl h.2))
  | .comp k i x _ c sort, esc, w, e, p, v, hc, ha, he => by
    simp only [Conv.ok, Bool.and_eq_true] at hc
    obtain ⟨⟨⟨h1, h2⟩, h3⟩, h4⟩ := hc
    simp only [Conv.args] at ha he
    simp only [Good]
    refine ⟨?_, fun y _ => ⟨?_, ?_, ?_⟩⟩
    · rintro ⟨rfl, h⟩
      rw [h] at h4
      cases h4
    · exact good_of_ok hN ht i false true _ _ y h1 (ha.mono (by simp +contextual))
        (InOk.param hN (ha.mono (by simp +contextual)) _)
    · exact good_of_ok hN ht x false true _ _ y h2 (ha.mono (by simp +contextual))
        (InOk.param hN (ha.mono (by simp +contextual)) _)
    · exact good_of_ok hN ht c false true _ _ y h3 (ha.mono (by simp +contextual))
        (InOk.param hN (ha.mono (by simp +contextual)) _)
  | .coll k items, esc, w, e, p, v, hc, ha, he => by
    simp only [Conv.ok, Bool.and_eq_true] at hc
    simp only [Conv.args] at ha he
    simp only [Good]
    refine ⟨?_, ?_⟩
    · rintro ⟨rfl, h⟩
      rcases h with rfl | rfl <;> cases hc.1
    · split
      · next h => exact good_opt hN ht items _ 0 v (by simpa only [h, if_true] using hc.2) ha
      · next h => exact good_all hN ht items w e _ 0 v (by simpa only [h, Bool.false_eq_true, if_false] using hc.2) ha he
  | .dict kvs, esc, w, e, p, v, hc, ha, he => by
    simp only [Conv.ok] at hc
    simp only [Conv.args] at ha he
    simp only [Good]
    split
    · next h => exact good_pairs hN ht kvs _ 0 v (by simpa only [h, if_true] using hc) ha
    · next h => exact good_all hN ht kvs w e _ 0 v (by simpa only [h, Bool.false_eq_true, if_false] using hc) ha he
  | .caching c name labels convs, esc, w, e, p, v, hc, ha, he => by
    simp only [Conv.ok, Bool.and_eq_true] at hc
    obtain ⟨⟨⟨h1, h2⟩, h3⟩, h4⟩ := hc
    simp only [Conv.args] at ha he
    simp only [Good]
    refine ⟨good_of_ok hN ht c false w e _ v h1 (ha.mono (by simp +contextual)) (he.mono (by simp +contextual)),
      by simpa using h2, by simpa using h3, fun x _ => ?_⟩
    exact good_all hN ht convs false _ _ 0 x h4 (ha.mono (by simp +contextual)) ⟨trivial, fun h => by cases h⟩
  | .tap o ms, esc, w, e, p, v, hc, ha, he => by
    simp only [Conv.ok, Bool.and_eq_true] at hc
    simp only [Conv.args] at ha he
    simp only [Good]
    refine ⟨good_of_ok hN ht o false w e _ v hc.1 (ha.mono (by simp +contextual)) (he.mono (by simp +contextual)),
      fun x _ => good_muts hN ht ms _ 0 x hc.2 (ha.mono (by simp +contextual))⟩
  | .pipe a b, esc, w, e, p, v, hc, ha, he => by
    simp only [Conv.ok, Bool.and_eq_true] at hc
    obtain ⟨⟨⟨h1, h2⟩, h3⟩, h4⟩ := hc
    simp only [Conv.args] at ha he
    simp only [Good]
    refine ⟨good_of_ok hN ht a esc w e _ v h1 (ha.mono (by simp +contextual)) (he.mono (by simp +contextual)),
      Or.inr ⟨?_, notStr_gen esc a e _ h2 he.1, fun x _ => ?_⟩⟩
    · by_cases hcx : a.complex = true
      · rw [complex_text hN esc a hcx]
        rw [hcx] at h3
        exact h3
      · have hcx' : a.complex = false := by simpa using hcx
        rw [hcx'] at h3
        cases inputIsSimple (render N (gen N esc a e (p ++ [0]))) with
        | true => exact h3
        | false => exact once_mono b h3
    · exact good_of_ok hN ht b false false _ _ x h4 (ha.mono (by simp +contextual))
        ⟨trivial, fun h => by cases h⟩

theorem good_all {tp : Bool} (hN : NamesOk N) (ht : TruthAll R tp P0) : ∀ (cs : List (Conv Val)) (w : Bool)
    (e : PyExpr Val) (p : List Nat) (n : Nat) (v : Val), okAll tp w cs = true → ArgsOk N (argsAll cs) →
    InOk N w e (argsAll cs) → GoodAll R fuel N A P0 cs e p n v
  | [], w, e, p, n, v, hc, ha, he => trivial
  | c :: cs, w, e, p, n, v, hc, ha, he => by
    simp only [okAll, Bool.and_eq_true] at hc
    simp only [argsAll] at ha he
    simp only [GoodAll]
    exact ⟨good_of_ok hN ht c false w e _ v hc.1 (ha.mono (by simp +contextual)) (he.mono (by simp +contextual)),
      good_all hN ht cs w e p (n + 1) v hc.2 (ha.mono (by simp +contextual)) (he.mono (by simp +contextual))⟩

theorem good_opt {tp : Bool} (hN : NamesOk N) (ht : TruthAll R tp P0) : ∀ (cs : List (Conv Val))
    (p : List Nat) (n : Nat) (v : Val), okItems tp cs = true → ArgsOk N (argsAll cs) →
    GoodOpt R fuel N A P0 cs p n v
  | [], p, n, v, hc, ha => trivial
  | .opt c cond :: cs, p, n, v, hc, ha => by
    simp only [okItems, Bool.and_eq_true] at hc
    simp only [argsAll, Conv.args] at ha
    simp only [GoodOpt]
    exact ⟨good_of_ok hN ht cond false true _ _ v hc.1.2 (ha.mono (by simp +contextual))
        (InOk.data hN (ha.mono (by simp +contextual))),
      good_of_ok hN ht c false true _ _ v hc.1.1 (ha.mono (by simp +contextual))
        (InOk.data hN (ha.mono (by simp +contextual))),
      good_opt hN ht cs p (n + 1) v hc.2 (ha.mono (by simp +contextual))⟩
  | c :: cs, p, n, v, hc, ha => by
    rcases opt_isOpt_or c with ⟨a, b, rfl⟩ | hno
    · simp only [okItems, Bool.and_eq_true] at hc
      simp only [argsAll, Conv.args] at ha
      simp only [GoodOpt]
      exact ⟨good_of_ok hN ht b false true _ _ v hc.1.2 (ha.mono (by simp +contextual))
          (InOk.data hN (ha.mono (by simp +contextual))),
        good_of_ok hN ht a false true _ _ v hc.1.1 (ha.mono (by simp +contextual))
          (InOk.data hN (ha.mono (by simp +contextual))),
        good_opt hN ht cs p (n + 1) v hc.2 (ha.mono (by simp +contextual))⟩
    · rw [okItems.eq_3 tp c cs hno, Bool.and_eq_true] at hc
      simp only [argsAll] at ha
      rw [GoodOpt.eq_3 R fuel N A P0 p n v c cs hno]
      exact ⟨good_of_ok hN ht c false true _ _ v hc.1 (ha.mono (by simp +contextual))
          (InOk.data hN (ha.mono (by simp +contextual))),
        good_opt hN ht cs p (n + 1) v hc.2 (ha.mono (by simp +contextual))⟩

theorem good_pairs {tp : Bool} (hN : NamesOk N) (ht : TruthAll R tp P0) : ∀ (cs : List (Conv Val))
    (p : List Nat) (n : Nat) (v : Val), okItems tp cs = true → ArgsOk N (argsAll cs) →
    GoodOptPairs R fuel N A P0 cs p n v
  | [], p, n, v, hc, ha => by simp only [GoodOptPairs]
  | [c], p, n, v, hc, ha => by
    cases c <;> simp only [GoodOptPairs]
  | k :: x :: rest, p, n, v, hc, ha => by
    rcases opt_isOpt_or k with ⟨a, b, rfl⟩ | hk <;> rcases opt_isOpt_or x with ⟨a', b', rfl⟩ | hx
    · simp only [okItems, Bool.and_eq_true] at hc
      simp only [argsAll, Conv.args] at ha
      simp only [GoodOptPairs]
      exact ⟨good_of_ok hN ht b false true _ _ v hc.1.2 (ha.mono (by simp +contextual))
          (InOk.data hN (ha.mono (by simp +contextual))), good_of_ok hN ht b' false true _ _ v hc.2.1.2 (ha.mono (by simp +contextual))
          (InOk.data hN (ha.mono (by simp +contextual))),
        good_of_ok hN ht a false true _ _ v hc.1.1 (ha.mono (by simp +contextual))
          (InOk.data hN (ha.mono (by simp +contextual))), good_of_ok hN ht a' false true _ _ v hc.2.1.1 (ha.mono (by simp +contextual))
          (InOk.data hN (ha.mono (by simp +contextual))),
        good_pairs hN ht rest p (n + 1) v hc.2.2 (ha.mono (by simp +contextual))⟩
    · simp only [okItems, okItems.eq_3 tp x rest hx, Bool.and_eq_true] at hc
      simp only [argsAll, Conv.args] at ha
      rw [GoodOptPairs.eq_2 R fuel N A P0 p n v a b x rest hx]
      exact ⟨good_of_ok hN ht b false true _ _ v hc.1.2 (ha.mono (by simp +contextual))
          (InOk.data hN (ha.mono (by simp +contextual))),
        good_of_ok hN ht a false true _ _ v hc.1.1 (ha.mono (by simp +contextual))
          (InOk.data hN (ha.mono (by simp +contextual))), good_of_ok hN ht x false true _ _ v hc.2.1 (ha.mono (by simp +contextual))
          (InOk.data hN (ha.mono (by simp +contextual))),
        good_pairs hN ht rest p (n + 1) v hc.2.2 (ha.mono (by simp +contextual))⟩
    · rw [okItems.eq_3 tp k _ hk] at hc
      simp only [okItems, Bool.and_eq_true] at hc
      simp only [argsAll, Conv.args] at ha
      rw [GoodOptPairs.eq_3 R fuel N A P0 p n v k a' b' rest hk]
      exact ⟨good_of_ok hN ht b' false true _ _ v hc.2.1.2 (ha.mono (by simp +contextual))
          (InOk.data hN (ha.mono (by simp +contextual))),
        good_of_ok hN ht k false true _ _ v hc.1 (ha.mono (by simp +contextual))
          (InOk.data hN (ha.mono (by simp +contextual))), good_of_ok hN ht a' false true _ _ v hc.2.1.1 (ha.mono (by simp +contextual))
          (InOk.data hN (ha.mono (by simp +contextual))),
        good_pairs hN ht rest p (n + 1) v hc.2.2 (ha.mono (by simp +contextual))⟩
    · rw [okItems.eq_3 tp k _ hk, okItems.eq_3 tp x rest hx] at hc
      simp only [Bool.and_eq_true] at hc
      simp only [argsAll] at ha
      rw [GoodOptPairs.eq_4 R fuel N A P0 p n v k x rest (fun a b _ _ h _ => hk a b h) (fun a b h => hk a b h)
        (fun a b h => hx a b h)]
      exact ⟨good_of_ok hN ht k false true _ _ v hc.1 (ha.mono (by simp +contextual))
          (InOk.data hN (ha.mono (by simp +contextual))), good_of_ok hN ht x false true _ _ v hc.2.1 (ha.mono (by simp +contextual))
          (InOk.data hN (ha.mono (by simp +contextual))),
        good_pairs hN ht rest p (n + 1) v hc.2.2 (ha.mono (by simp +contextual))⟩

theorem good_muts {tp : Bool} (hN : NamesOk N) (ht : TruthAll R tp P0) : ∀ (cs : List (Conv Val))
    (p : List Nat) (n : Nat) (v : Val), okMuts tp cs = true → ArgsOk N (argsAll cs) →
    GoodAll R fuel N A P0 cs (.name "data_") p n v
  | [], p, n, v, hc, ha => trivial
  | .mutSetItem k x :: cs, p, n, v, hc, ha => by
    simp only [okMuts, Bool.and_eq_true] at hc
    simp only [argsAll, Conv.args] at ha
    simp only [GoodAll, Good]
    exact ⟨⟨good_of_ok hN ht k false true _ _ v hc.1.1 (ha.mono (by simp +contextual))
        (InOk.data hN (ha.mono (by simp +contextual))),
      good_of_ok hN ht x false true _ _ v hc.1.2 (ha.mono (by simp +contextual))
        (InOk.data hN (ha.mono (by simp +contextual)))⟩,
      good_muts hN ht cs p (n + 1) v hc.2 (ha.mono (by simp +contextual))⟩
  | .mutSetAttr k x :: cs, p, n, v, hc, ha => by
    simp only [okMuts, Bool.and_eq_true] at hc
    simp only [argsAll, Conv.args] at ha
    simp only [GoodAll, Good]
    exact ⟨⟨good_of_ok hN ht k false true _ _ v hc.1.1 (ha.mono (by simp +contextual))
        (InOk.data hN (ha.mono (by simp +contextual))),
      good_of_ok hN ht x false true _ _ v hc.1.2 (ha.mono (by simp +contextual))
        (InOk.data hN (ha.mono (by simp +contextual)))⟩,
      good_muts hN ht cs p (n + 1) v hc.2 (ha.mono (by simp +contextual))⟩
  | .mutDelItem k :: cs, p, n, v, hc, ha => by
    simp only [okMuts, Bool.and_eq_true] at hc
    simp only [argsAll, Conv.args] at ha
    simp only [GoodAll, Good]
    exact ⟨good_of_ok hN ht k false true _ _ v hc.1 (ha.mono (by simp +contextual))
        (InOk.data hN (ha.mono (by simp +contextual))),
      good_muts hN ht cs p (n + 1) v hc.2 (ha.mono (by simp +contextual))⟩
  | .mutDelAttr k :: cs, p, n, v, hc, ha => by
    simp only [okMuts, Bool.and_eq_true] at hc
    simp only [argsAll, Conv.args] at ha
    simp only [GoodAll, Good]
    exact ⟨good_of_ok hN ht k false true _ _ v hc.1 (ha.mono (by simp +contextual))
        (InOk.data hN (ha.mono (by simp +contextual))),
      good_muts hN ht cs p (n + 1) v hc.2 (ha.mono (by simp +contextual))⟩
  | .mutCustom k :: cs, p, n, v, hc, ha => by
    simp only [okMuts, Bool.and_eq_true] at hc
    simp only [argsAll, Conv.args] at ha
    simp only [GoodAll, Good]
    exact ⟨good_of_ok hN ht k false true _ _ v hc.1 (ha.mono (by simp +contextual))
        (InOk.data hN (ha.mono (by simp +contextual))),
      good_muts hN ht cs p (n + 1) v hc.2 (ha.mono (by simp +contextual))⟩

end

end

end Verif.Expr
