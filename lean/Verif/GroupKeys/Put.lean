import Verif.GroupKeys.Chain

/-!
# Group keys: replacing a key's text replaces the key
-/

set_option autoImplicit false

namespace Verif.GroupKeys

open Verif.Expr Verif.Text

section
variable {Val : Type} {printable : Char → Bool} {N : Names Val} {key sig : PyExpr Val} {S : List Char}

/-- Lookups on the row: the key is among them, or it is not. -/
def ChainInfo (N : Names Val) (key sig : PyExpr Val) (S : List Char) (e : PyExpr Val) : Prop :=
  (∃ w w' : List Char, (render N e).toList = rowChars ++ S ++ w ∧
    (render N (put N key sig e)).toList = (render N sig).toList ++ w' ∧
    ∀ cs, rEnd cs = true → replaceFrom (rowChars ++ S) (render N sig).toList 0 (w ++ cs) =
      w' ++ replaceFrom (rowChars ++ S) (render N sig).toList 0 cs) ∨
  (¬ hasKey N (render N key) e ∧ ∃ w w' : List Char, (render N e).toList = rowChars ++ w ∧
    (render N (put N key sig e)).toList = rowChars ++ w' ∧
    ∀ cs, rEnd cs = true → replaceFrom (rowChars ++ S) (render N sig).toList 0 (w ++ cs) =
      w' ++ replaceFrom (rowChars ++ S) (render N sig).toList 0 cs)

theorem skip_row (S rep cs : List Char) (h : ¬ rowChars ++ S <+: rowChars ++ cs) :
    replaceFrom (rowChars ++ S) rep 0 (rowChars ++ cs) = rowChars ++ replaceFrom (rowChars ++ S) rep 0 cs := by
  have hne : ∀ (c : Char) (l : List Char), c ≠ 'r' → ¬ rowChars ++ S <+: c :: l := by
    rintro c l hc ⟨r, hr⟩
    simp only [rowChars, List.cons_append, List.cons.injEq] at hr
    exact hc hr.1.symm
  have h' : ¬ rowChars ++ S <+: 'r' :: 'o' :: 'w' :: '_' :: cs := h
  have e1 := replace_skip1 (rep := rep) h'
  have e2 := replace_skip1 (rep := rep) (hne 'o' ('w' :: '_' :: cs) (by decide))
  have e3 := replace_skip1 (rep := rep) (hne 'w' ('_' :: cs) (by decide))
  have e4 := replace_skip1 (rep := rep) (hne '_' cs (by decide))
  rw [e2, e3, e4] at e1
  exact e1

theorem row_text : (render N (.name varRow)).toList = rowChars := by
  simp only [render]
  decide

theorem ChainInfo.swaps (hN : PyNames printable N) (hk : isChain key = true) (hkw : wf N key = true)
    (hS : (render N key).toList = rowChars ++ S) {e : PyExpr Val} (he : isChain e = true) (hw : wf N e = true)
    (h : ChainInfo N key sig S e) :
    Swaps S (render N sig).toList true (render N e) (render N (put N key sig e)) := by
  intro cs h1 h2
  rcases h with ⟨w, w', e1, e2, e3⟩ | ⟨hn, w, w', e1, e2, e3⟩
  · rw [e1, e2, List.append_assoc, replace_at _ _ (by simp [rowChars]), e3 cs h1, List.append_assoc]
  · rw [e2, e1, List.append_assoc, skip_row, e3 cs h1, List.append_assoc]
    intro hp
    apply hn
    refine align hN hk hkw he hw (cs := cs) (h2 rfl) ?_
    rw [hS, e1, List.append_assoc]
    exact hp

theorem chain_name (hS : (render N key).toList = rowChars ++ S) : ChainInfo N key sig S (.name varRow) := by
  by_cases h : render N (.name varRow) = render N key
  · left
    have hS' : S = [] := by
      rw [← h] at hS
      rw [row_text] at hS
      simpa using hS
    refine ⟨[], [], ?_, ?_, by simp⟩
    · rw [hS', row_text]; rfl
    · have : put N key sig (.name varRow) = sig := by
        simp only [put]
        rw [if_pos]
        simp only [isKey, isChain, h, beq_self_eq_true, Bool.and_self]
      rw [this, List.append_nil]
  · right
    refine ⟨h, [], [], row_text, ?_, by simp⟩
    have : put N key sig (.name varRow) = .name varRow := by
      simp only [put]
      rw [if_neg]
      simp only [isKey, Bool.and_eq_true, beq_iff_eq, h, and_false, not_false_eq_true]
    rw [this]
    exact row_text

theorem chain_sub (hS : (render N key).toList = rowChars ++ S) {e i : PyExpr Val}
    (hc : isChain e = true) (he : ChainInfo N key sig S e)
    (hi : Swaps S (render N sig).toList (isChain i) (render N i) (render N (put N key sig i))) :
    ChainInfo N key sig S (.sub e i) := by
  have hrest : ∀ {w w' : List Char}, (∀ cs, rEnd cs = true →
      replaceFrom (rowChars ++ S) (render N sig).toList 0 (w ++ cs) =
        w' ++ replaceFrom (rowChars ++ S) (render N sig).toList 0 cs) → ∀ cs, rEnd cs = true →
      replaceFrom (rowChars ++ S) (render N sig).toList 0 (w ++ "[".toList ++ (render N i).toList ++ "]".toList ++ cs) =
        w' ++ "[".toList ++ (render N (put N key sig i)).toList ++ "]".toList ++
          replaceFrom (rowChars ++ S) (render N sig).toList 0 cs := by
    intro w w' h cs h1
    simp only [List.append_assoc]
    rw [h _ rfl, skip_piece "[" _, hi.andThen "]" _]
  have hput : isKey N key (.sub e i) = false →
      (render N (put N key sig (.sub e i))).toList = (render N (put N key sig e)).toList ++ "[".toList ++
        (render N (put N key sig i)).toList ++ "]".toList := by
    intro h
    simp only [put, h, Bool.false_eq_true, if_false, render, String.toList_append]
  have hsub : (render N (.sub e i)).toList = (render N e).toList ++ "[".toList ++ (render N i).toList ++
      "]".toList := by simp only [render, String.toList_append]
  rcases he with ⟨w, w', e1, e2, e3⟩ | ⟨hn, w, w', e1, e2, e3⟩
  · left
    refine ⟨w ++ "[".toList ++ (render N i).toList ++ "]".toList,
      w' ++ "[".toList ++ (render N (put N key sig i)).toList ++ "]".toList, ?_, ?_, hrest e3⟩
    · rw [hsub, e1]; simp only [List.append_assoc]
    · rw [hput, e2]
      · simp only [List.append_assoc]
      · rw [isKey, Bool.and_eq_false_iff]
        right
        rw [beq_eq_false_iff_ne]
        intro h
        have h := congrArg (fun s => s.toList.length) h
        simp only [hsub, e1, hS, List.length_append] at h
        have : "[".toList.length = 1 := rfl
        omega
  · by_cases hk : render N (.sub e i) = render N key
    · left
      refine ⟨[], [], ?_, ?_, by simp⟩
      · rw [hk, hS, List.append_nil]
      · have : put N key sig (.sub e i) = sig := by
          simp only [put]
          rw [if_pos]
          simp only [isKey, isChain, hc, hk, beq_self_eq_true, Bool.and_self]
        rw [this, List.append_nil]
    · right
      refine ⟨?_, w ++ "[".toList ++ (render N i).toList ++ "]".toList,
        w' ++ "[".toList ++ (render N (put N key sig i)).toList ++ "]".toList, ?_, ?_, hrest e3⟩
      · rintro (h | h)
        · exact hk h
        · exact hn h
      · rw [hsub, e1]; simp only [List.append_assoc]
      · rw [hput, e2]
        · simp only [List.append_assoc]
        · rw [isKey, Bool.and_eq_false_iff]
          right
          rw [beq_eq_false_iff_ne]
          exact hk

/-- What replacing does to the text of an expression. -/
def Good (N : Names Val) (key sig : PyExpr Val) (S : List Char) (e : PyExpr Val) : Prop :=
  (isChain e = true → ChainInfo N key sig S e) ∧
    Swaps S (render N sig).toList (isChain e) (render N e) (render N (put N key sig e))

theorem Good.of {e : PyExpr Val} (hc : isChain e = false)
    (h : Swaps S (render N sig).toList false (render N e) (render N (put N key sig e))) : Good N key sig S e := by
  refine ⟨fun h' => ?_, ?_⟩
  · rw [hc] at h'; cases h'
  · rw [hc]; exact h

theorem swaps_sort {k : Kind} {s s' : String} {b : Bool} {rep : List Char} (h : Swaps S rep b s s') (hb : b = false)
    (hN : PyNames printable N)
    (sort : Option (Lit Val × Bool))
    (hs : (match sort with | none => true | some (key, _) => clean (N.const key)) = true) :
    Swaps S rep false (sortText N k s sort) (sortText N k s' sort) := by
  subst hb
  cases sort with
  | none => exact h
  | some p =>
    obtain ⟨key, rev⟩ := p
    simp only [clean, Bool.not_eq_true'] at hs
    have hrev : isIn varRow (N.const (.bool rev)) = false := by
      rw [hN.bool]
      cases rev <;> decide +kernel
    have key' : ∀ cs, replaceFrom (rowChars ++ S) rep 0 ("sorted(".toList ++ (s.toList ++ (", key=".toList ++
        ((N.const key).toList ++ (",reverse=".toList ++ ((N.const (.bool rev)).toList ++ (")".toList ++ cs))))))) =
        "sorted(".toList ++ (s'.toList ++ (", key=".toList ++
        ((N.const key).toList ++ (",reverse=".toList ++ ((N.const (.bool rev)).toList ++ (")".toList ++
          replaceFrom (rowChars ++ S) rep 0 cs)))))) := by
      intro cs
      rw [skip_piece "sorted(" _, h.andThen ", key=" _, (swaps_clean hs true).andThen ",reverse=" _,
        (swaps_clean hrev true).andThen ")" _]
    intro cs _ _
    cases k <;> simp only [sortText, String.toList_append, List.append_assoc]
    · exact key' cs
    · rw [skip_piece "tuple(" _, key', skip_piece ")" _]
    · exact key' cs
    · rw [skip_piece "OrderedDict(" _, key', skip_piece ")" _]

/-- The part of a comprehension between the brackets. -/
theorem swaps_gen {rep : List Char} {it it' var iter iter' cond cond' : String} {hasCond : Bool}
    (h1 : Swaps S rep true it it') (h2 : isIn varRow var = false) (h3 : Swaps S rep true iter iter')
    (h4 : Swaps S rep true cond cond') :
    Swaps S rep true (it ++ " for " ++ var ++ " in " ++ iter ++ (if hasCond then " if " ++ cond else ""))
      (it' ++ " for " ++ var ++ " in " ++ iter' ++ (if hasCond then " if " ++ cond' else "")) := by
  intro cs e1 e2
  cases hasCond
  · simp only [String.toList_append, List.append_assoc, Bool.false_eq_true, if_false]
    rw [h1.andThen " for " _, (swaps_clean h2 true).andThen " in " _, String.toList_empty, List.nil_append, h3 _ e1 e2]
    simp
  · simp only [String.toList_append, List.append_assoc, if_true]
    rw [h1.andThen " for " _, (swaps_clean h2 true).andThen " in " _, h3.andThen " if " _, h4 _ e1 e2]

set_option maxHeartbeats 3200000 in
mutual

/-- Replacing the key's text replaces the key. -/
theorem good (hN : PyNames printable N) (hk : isChain key = true) (hkw : wf N key = true)
    (hS : (render N key).toList = rowChars ++ S) : ∀ (e : PyExpr Val), wf N e = true → quiet N e = true →
    Good N key sig S e
  | .name n, _, q => by
    by_cases hn : n = varRow
    · subst hn
      have h := chain_name (sig := sig) hS
      exact ⟨fun _ => h, h.swaps hN hk hkw hS rfl rfl⟩
    · simp only [quiet, Bool.or_eq_true, beq_iff_eq, hn, false_or, clean, Bool.not_eq_true'] at q
      have hc : isChain (.name n : PyExpr Val) = false := by simp [isChain, hn]
      apply Good.of hc
      have : put N key sig (.name n) = .name n := by simp [put, isKey, hc]
      rw [this]
      exact swaps_clean q _
  | .const l, _, q => by
    simp only [quiet, clean, Bool.not_eq_true'] at q
    exact Good.of rfl (swaps_clean q _)
  | .getLabel l, _, q => by
    simp only [quiet, clean, Bool.not_eq_true'] at q
    apply Good.of rfl
    exact swaps_in (swaps_clean q true) "get_by_label_('" "')" _
  | .addLabel l e, h, q => by
    simp only [wf, Bool.and_eq_true] at h
    simp only [quiet, clean, Bool.and_eq_true, Bool.not_eq_true'] at q
    have g := (good hN hk hkw hS e h.2 q.2).2
    apply Good.of rfl
    intro cs _ _
    simp only [render, put, String.toList_append, List.append_assoc]
    rw [skip_piece "add_label_('" _, (swaps_clean q.1 true).andThen "', " _, g.andThen ")" _]
  | .attach a b, h, q => by
    simp only [wf, Bool.and_eq_true] at h
    simp only [quiet, Bool.and_eq_true] at q
    have g1 := (good hN hk hkw hS a h.1 q.1).2
    have g2 := (good hN hk hkw hS b h.2 q.2).2
    apply Good.of rfl
    intro cs _ _
    simp only [render, put, String.toList_append, List.append_assoc]
    rw [skip_piece "(" _, g1.andThen " and None or " _, g2.andThen ")" _]
  | .sub e i, h, q => by
    simp only [quiet, Bool.and_eq_true] at q
    have h0 := h
    simp only [wf, Bool.and_eq_true] at h
    have g1 := good hN hk hkw hS e h.1.2 q.1
    have g2 := (good hN hk hkw hS i h.2 q.2).2
    by_cases hc : isChain e = true
    · have hc' : isChain (.sub e i) = true := hc
      have g := chain_sub hS hc (g1.1 hc) g2
      refine ⟨fun _ => g, ?_⟩
      rw [hc']
      exact g.swaps hN hk hkw hS hc' h0
    · simp only [Bool.not_eq_true] at hc
      have hc' : isChain (.sub e i) = false := hc
      apply Good.of hc'
      have g3 := g1.2
      rw [hc] at g3
      intro cs _ _
      have : put N key sig (.sub e i) = .sub (put N key sig e) (put N key sig i) := by simp [put, isKey, hc']
      rw [this]
      simp only [render, String.toList_append, List.append_assoc]
      rw [g3 _ rfl (by simp), skip_piece "[" _, g2.andThen "]" _]
  | .dot e a, h, q => by
    simp only [wf, Bool.and_eq_true] at h
    simp only [quiet, clean, Bool.and_eq_true, Bool.not_eq_true'] at q
    have g := (good hN hk hkw hS e h.2 q.2).2
    apply Good.of rfl
    intro cs c1 _
    simp only [render, put, String.toList_append, List.append_assoc]
    rw [g.andThen "." _, swaps_clean q.1 false _ c1 (by simp)]
  | .getattr e i, h, q => by
    simp only [wf, Bool.and_eq_true] at h
    simp only [quiet, Bool.and_eq_true] at q
    have g1 := (good hN hk hkw hS e h.1 q.1).2
    have g2 := (good hN hk hkw hS i h.2 q.2).2
    apply Good.of rfl
    intro cs _ _
    simp only [render, put, String.toList_append, List.append_assoc]
    rw [skip_piece "getattr(" _, g1.andThen ", " _, g2.andThen ")" _]
  | .call f args kw, h, q => by
    simp only [wf, Bool.and_eq_true] at h
    simp only [quiet, Bool.and_eq_true] at q
    have g1 := (good hN hk hkw hS f h.1.2 q.1.2).2
    have g2 := (good_all hN hk hkw hS args h.2 q.2).withKw q.1.1
    apply Good.of rfl
    intro cs _ _
    simp only [render, put, String.toList_append, List.append_assoc]
    rw [g1.andThen "(" _, (g2.join (sep := ",")).andThen ")" _]
  | .boolop isAnd es, h, q => by
    simp only [wf, Bool.and_eq_true] at h
    simp only [quiet] at q
    have g := good_all hN hk hkw hS es h.2 q
    apply Good.of rfl
    intro cs _ _
    simp only [render, put, String.toList_append, List.append_assoc]
    cases isAnd
    · simp only [Bool.false_eq_true, if_false]
      rw [skip_piece "(" _, (g.join (sep := " or ")).andThen ")" _]
    · simp only [if_true]
      rw [skip_piece "(" _, (g.join (sep := " and ")).andThen ")" _]
  | .eqs es, h, q => by
    simp only [wf, Bool.and_eq_true] at h
    simp only [quiet] at q
    have g := good_all hN hk hkw hS es h.2 q
    apply Good.of rfl
    intro cs _ _
    simp only [render, put, String.toList_append, List.append_assoc]
    rw [skip_piece "(" _, (g.join (sep := " == ")).andThen ")" _]
  | .not e, h, q => by
    simp only [wf] at h
    simp only [quiet] at q
    have g := (good hN hk hkw hS e h q).2
    apply Good.of rfl
    exact swaps_in g "(not " ")" _
  | .bin o a b, h, q => by
    cases o
    case index =>
      simp only [wf, Bool.and_eq_true] at h
      simp only [quiet, Bool.and_eq_true, Bool.not_eq_true'] at q
      have g1 := (good hN hk hkw hS a h.1.2 q.1.2).2
      rw [q.1.1] at g1
      have g2 := (good hN hk hkw hS b h.2 q.2).2
      apply Good.of rfl
      intro cs _ _
      simp only [render, put, String.toList_append, List.append_assoc]
      rw [skip_piece "(" _, g1 _ rfl (by simp), skip_piece "[" _, g2.andThen "])" _]
    all_goals
      simp only [wf, Bool.and_eq_true] at h
      simp only [quiet, Bool.and_eq_true] at q
      have g1 := (good hN hk hkw hS a h.1 q.1).2
      have g2 := (good hN hk hkw hS b h.2 q.2).2
      apply Good.of rfl
      intro cs _ _
      simp only [render, put, String.toList_append, List.append_assoc]
      rw [skip_piece "(" _, g1.andThen (BinOp.text _) _, g2.andThen ")" _]
  | .neg e, h, q => by
    simp only [wf] at h
    simp only [quiet] at q
    have g := (good hN hk hkw hS e h q).2
    apply Good.of rfl
    exact swaps_in g "(-" ")" _
  | .ifexp t c f, h, q => by
    simp only [wf, Bool.and_eq_true] at h
    simp only [quiet, Bool.and_eq_true] at q
    have g1 := (good hN hk hkw hS t h.1.1 q.1.1).2
    have g2 := (good hN hk hkw hS c h.1.2 q.1.2).2
    have g3 := (good hN hk hkw hS f h.2 q.2).2
    apply Good.of rfl
    intro cs _ _
    simp only [render, put, String.toList_append, List.append_assoc]
    rw [skip_piece "(" _, g1.andThen " if " _, g2.andThen " else " _, g3.andThen ")" _]
  | .comp k item value var iter hasCond cond sort, h, q => by
    simp only [wf, Bool.and_eq_true] at h
    simp only [quiet, Bool.and_eq_true] at q
    obtain ⟨⟨⟨⟨⟨_, _⟩, h1⟩, h2⟩, h3⟩, h4⟩ := h
    obtain ⟨⟨⟨⟨⟨⟨qv, _⟩, q1⟩, q2⟩, q3⟩, q4⟩, q5⟩ := q
    simp only [clean, Bool.not_eq_true'] at qv
    have g1 := (good hN hk hkw hS item h1 q1).2.weaken
    have g2 := (good hN hk hkw hS value h2 q2).2.weaken
    have g3 := (good hN hk hkw hS iter h3 q3).2.weaken
    have g4 := (good hN hk hkw hS cond h4 q4).2.weaken
    apply Good.of rfl
    simp only [render, put]
    refine swaps_sort (b := false) ?_ rfl hN sort q5
    cases k
    · exact swaps_in (swaps_gen g1 qv g3 g4) "[" "]" _
    · cases sort with
      | none => exact swaps_in (swaps_gen g1 qv g3 g4) "tuple(" ")" _
      | some p => exact swaps_in (swaps_gen g1 qv g3 g4) "(" ")" _
    · exact swaps_in (swaps_gen g1 qv g3 g4) "{" "}" _
    · cases sort with
      | none =>
        have g5 : Swaps S (render N sig).toList true (render N item ++ ": " ++ render N value)
            (render N (put N key sig item) ++ ": " ++ render N (put N key sig value)) := by
          intro cs c1 c2
          simp only [String.toList_append, List.append_assoc]
          rw [g1.andThen ": " _, g2 _ c1 c2]
        exact swaps_in (swaps_gen g5 qv g3 g4) "{" "}" _
      | some p =>
        have g5 : Swaps S (render N sig).toList true ("(" ++ render N item ++ ", " ++ render N value ++ ")")
            ("(" ++ render N (put N key sig item) ++ ", " ++ render N (put N key sig value) ++ ")") := by
          intro cs c1 c2
          simp only [String.toList_append, List.append_assoc]
          rw [skip_piece "(" _, g1.andThen ", " _, g2.andThen ")" _]
        exact swaps_in (swaps_gen g5 qv g3 g4) "(" ")" _
  | .display k items, h, q => by
    simp only [wf, Bool.and_eq_true] at h
    simp only [quiet] at q
    have g := good_all hN hk hkw hS items h.2 q
    apply Good.of rfl
    cases k <;> simp only [render, put]
    · exact swaps_in (g.join (sep := ",")) "[" "]" _
    · exact swaps_in (g.join (sep := ",")) "(" ",)" _
    · exact swaps_in (g.join (sep := ",")) "{" "}" _
    · exact swaps_in (g.pairs.join (sep := ",")) "{" "}" _
  | .getOrDefault fname _ selfGiven self obj dflt, h, q => by
    simp only [wf, Bool.and_eq_true] at h
    simp only [quiet, clean, Bool.and_eq_true, Bool.not_eq_true'] at q
    obtain ⟨⟨⟨⟨_, _⟩, h2⟩, h3⟩, h4⟩ := h
    obtain ⟨⟨⟨q1, q2⟩, q3⟩, q4⟩ := q
    have g2 := (good hN hk hkw hS self h2 q2).2
    have g3 := (good hN hk hkw hS obj h3 q3).2
    have g4 := (good hN hk hkw hS dflt h4 q4).2
    apply Good.of rfl
    intro cs _ _
    cases selfGiven
    · simp only [render, put, String.toList_append, List.append_assoc, Bool.false_eq_true, if_false,
        String.toList_empty, List.nil_append]
      rw [(swaps_clean q1 true).andThen "(" _, g3.andThen "," _, g4.andThen ")" _]
    · simp only [render, put, String.toList_append, List.append_assoc, if_true]
      rw [(swaps_clean q1 true).andThen "(" _, g2.andThen "," _, g3.andThen "," _, g4.andThen ")" _]
  | .optItems k fname _ body obj args, h, q => by
    simp only [wf, Bool.and_eq_true] at h
    simp only [quiet, Bool.and_eq_true] at q
    have g := (good hN hk hkw hS obj h.1.2 q.1.2).2
    have gs : AllSwap S (render N sig).toList (render N obj :: args) (render N (put N key sig obj) :: args) :=
      .cons g.weaken (.names q.2)
    have q1 := q.1.1
    simp only [clean, Bool.not_eq_true'] at q1
    apply Good.of rfl
    intro cs _ _
    cases k <;> simp only [render, put, String.toList_append, List.append_assoc]
    · rw [skip_piece "list(" _, (swaps_clean q1 true).andThen "(" _, (gs.join (sep := ",")).andThen "))" _]
    · rw [skip_piece "tuple(" _, (swaps_clean q1 true).andThen "(" _, (gs.join (sep := ",")).andThen "))" _]
    · rw [skip_piece "set(" _, (swaps_clean q1 true).andThen "(" _, (gs.join (sep := ",")).andThen "))" _]
    · rw [skip_piece "dict(" _, (swaps_clean q1 true).andThen "(" _, (gs.join (sep := ",")).andThen "))" _]
  | .optDict fname _ body obj args, h, q => by
    simp only [wf, Bool.and_eq_true] at h
    simp only [quiet, Bool.and_eq_true] at q
    have g := (good hN hk hkw hS obj h.1.2 q.1.2).2
    have gs : AllSwap S (render N sig).toList (render N obj :: args) (render N (put N key sig obj) :: args) :=
      .cons g.weaken (.names q.2)
    have q1 := q.1.1
    simp only [clean, Bool.not_eq_true'] at q1
    apply Good.of rfl
    intro cs _ _
    simp only [render, put, String.toList_append, List.append_assoc]
    rw [skip_piece "dict(" _, (swaps_clean q1 true).andThen "(" _, (gs.join (sep := ",")).andThen "))" _]
  | .tap fname obj _ args, h, q => by
    simp only [wf, Bool.and_eq_true] at h
    simp only [quiet, Bool.and_eq_true] at q
    have g := (good hN hk hkw hS obj h.1.2 q.1.2).2
    have gs : AllSwap S (render N sig).toList (render N obj :: args) (render N (put N key sig obj) :: args) :=
      .cons g.weaken (.names q.2)
    have q1 := q.1.1
    simp only [clean, Bool.not_eq_true'] at q1
    apply Good.of rfl
    intro cs _ _
    simp only [render, put, String.toList_append, List.append_assoc]
    rw [(swaps_clean q1 true).andThen "(" _, (gs.join (sep := ",")).andThen ")" _]
  | .setattr o k v, h, q => by
    simp only [wf, Bool.and_eq_true] at h
    simp only [quiet, Bool.and_eq_true] at q
    have g1 := (good hN hk hkw hS o h.1.1 q.1.1).2
    have g2 := (good hN hk hkw hS k h.1.2 q.1.2).2
    have g3 := (good hN hk hkw hS v h.2 q.2).2
    apply Good.of rfl
    intro cs _ _
    simp only [render, put, String.toList_append, List.append_assoc]
    rw [skip_piece "setattr(" _, g1.andThen ", " _, g2.andThen ", " _, g3.andThen ")" _]
  | .pop o k, h, q => by
    simp only [wf, Bool.and_eq_true] at h
    simp only [quiet, Bool.and_eq_true] at q
    have g1 := (good hN hk hkw hS o h.1.2 q.1).2
    have g2 := (good hN hk hkw hS k h.2 q.2).2
    apply Good.of rfl
    intro cs _ _
    simp only [render, put, String.toList_append, List.append_assoc]
    rw [g1.andThen ".pop(" _, g2.andThen ")" _]
  | .delattr o k, h, q => by
    simp only [wf, Bool.and_eq_true] at h
    simp only [quiet, Bool.and_eq_true] at q
    have g1 := (good hN hk hkw hS o h.1 q.1).2
    have g2 := (good hN hk hkw hS k h.2 q.2).2
    apply Good.of rfl
    intro cs _ _
    simp only [render, put, String.toList_append, List.append_assoc]
    rw [skip_piece "delattr(" _, g1.andThen ", " _, g2.andThen ")" _]
  | .setitem _ _ _, h, _ => by simp [wf] at h
  | .bad _, h, _ => by simp [wf] at h
  | .given _ _, h, _ => by simp [wf] at h

theorem good_all (hN : PyNames printable N) (hk : isChain key = true) (hkw : wf N key = true)
    (hS : (render N key).toList = rowChars ++ S) : ∀ (es : List (PyExpr Val)), wfAll N es = true →
    quietAll N es = true → AllSwap S (render N sig).toList (renderAll N es) (renderAll N (putAll N key sig es))
  | [], _, _ => .nil
  | e :: es, h, q => by
    simp only [wfAll, Bool.and_eq_true] at h
    simp only [quietAll, Bool.and_eq_true] at q
    exact .cons (good hN hk hkw hS e h.1 q.1).2.weaken (good_all hN hk hkw hS es h.2 q.2)

end

/-- The text of a lookup on the row. -/
theorem chain_text {e : PyExpr Val} (h : isChain e = true) (hw : wf N e = true) :
    ∃ S, (render N e).toList = rowChars ++ S := by
  obtain ⟨is, rfl, _⟩ := chain_wrap e h hw
  exact ⟨idxText N is, by rw [render_wrap, row_text]⟩

/-- Replacing the key's text in the text of an expression. -/
theorem replace_render (hN : PyNames printable N) (hk : isChain key = true) (hkw : wf N key = true)
    (sig : PyExpr Val) {e : PyExpr Val} (hw : wf N e = true) (hq : quiet N e = true) :
    replace (render N e) (render N key) (render N sig) = render N (put N key sig e) := by
  obtain ⟨S, hS⟩ := chain_text hk hkw
  have h := (good (sig := sig) hN hk hkw hS e hw hq).2 [] rfl (by simp)
  simp only [List.append_nil, replaceFrom] at h
  rw [replace, hS, h, String.ofList_toList]

end

end Verif.GroupKeys
