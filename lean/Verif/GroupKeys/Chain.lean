import Verif.GroupKeys.Swap

/-!
# Group keys: lookups on the row
-/

set_option autoImplicit false

namespace Verif.GroupKeys

open Verif.Expr Verif.Text

section
variable {Val : Type} {printable : Char → Bool} {N : Names Val}

theorem lex_rbr_ne : ∀ (w : List Char) (st : LexState) (ts : List Tok), lexFrom st (w ++ [']']) = some ts → ts ≠ []
  | [], st, ts, h => by
    rintro rfl
    simp only [List.nil_append, lexFrom] at h
    cases st with
    | start =>
      rw [show step .start ']' = some ([.rbr], .start) from rfl] at h
      simp [final] at h
    | word acc =>
      rw [show step (.word acc) ']' = some ([wordTok (String.ofList acc), .rbr], .start) from rfl] at h
      simp [final] at h
    | num n =>
      rw [show step (.num n) ']' = some ([.num n, .rbr], .start) from rfl] at h
      simp [final] at h
    | op a =>
      simp only [step] at h
      cases hd : double a ']' with
      | some t => rw [hd] at h; simp [final] at h
      | none =>
        rw [hd] at h
        cases hh : half a with
        | none => rw [hh] at h; simp at h
        | some t =>
          rw [hh, show begin_ ']' = some ([.rbr], .start) from rfl] at h
          simp [final] at h
    | str q acc =>
      simp only [step] at h
      split at h
      · cases h
      · rename_i ts st' hs
        split at hs
        · cases hs; simp [final] at h
        · rw [if_neg (by decide), if_neg (by decide)] at hs
          cases hs
          simp [final] at h
    | esc q acc =>
      rw [show step (.esc q acc) ']' = none from rfl] at h
      cases h
    | hex q acc left v =>
      rw [show step (.hex q acc left v) ']' = none from rfl] at h
      cases h
  | c :: w, st, ts, h => by
    simp only [List.cons_append, lexFrom] at h
    split at h
    · cases h
    · rename_i ts1 st' hs
      cases hl : lexFrom st' (w ++ [']']) with
      | none => rw [hl] at h; cases h
      | some ts2 =>
        rw [hl] at h
        cases h
        have := lex_rbr_ne w st' ts2 hl
        intro he
        simp only [List.append_eq_nil_iff] at he
        exact this he.2

/-- Reading an expression, then a closing bracket. -/
theorem read_rbr (hN : PyNames printable N) {a : PyExpr Val} (ha : wf N a = true) (cs : List Char) :
    lexFrom .start ((render N a).toList ++ ']' :: cs) = (lexFrom .start cs).map (toks N a ++ [.rbr] ++ ·) :=
  (reads_of hN a ha).andThen Pc.w_rbr (by decide +kernel) cs

theorem bracket_lt (hN : PyNames printable N) {a b : PyExpr Val} (ha : wf N a = true) (hb : wf N b = true)
    {w : List Char} (h : (render N b).toList = (render N a).toList ++ ']' :: w) : False := by
  have h1 := read_rbr hN hb []
  have h2 := read_rbr hN ha (w ++ [']'])
  rw [h, List.append_assoc, List.cons_append, h2] at h1
  simp only [lexFrom, final, Option.map_some, List.append_nil] at h1
  cases hl : lexFrom .start (w ++ [']']) with
  | none => rw [hl] at h1; cases h1
  | some W =>
    rw [hl] at h1
    simp only [Option.map_some, Option.some.injEq] at h1
    obtain ⟨n, hn⟩ := (rd_of_pr (pr_of a ha)).read (.rbr :: W) (by simp [strength])
    obtain ⟨m, hm⟩ := (rd_of_pr (pr_of b hb)).read [.rbr] (by simp [strength])
    have e1 := hn (n + m) (by omega)
    have e2 := hm (n + m) (by omega)
    rw [show toks N a ++ .rbr :: W = toks N b ++ [.rbr] by rw [← h1]; simp, e2] at e1
    simp only [Option.some.injEq, Prod.mk.injEq, List.cons.injEq, true_and] at e1
    exact lex_rbr_ne w _ _ hl e1.2.symm

/-- Two expressions before a closing bracket. -/
theorem bracket (hN : PyNames printable N) {a b : PyExpr Val} (ha : wf N a = true) (hb : wf N b = true)
    {u v : List Char} (h : (render N a).toList ++ ']' :: u = (render N b).toList ++ ']' :: v) :
    render N a = render N b ∧ u = v := by
  rcases List.append_eq_append_iff.1 h with ⟨w, h1, h2⟩ | ⟨w, h1, h2⟩
  · cases w with
    | nil =>
      simp only [List.append_nil] at h1
      simp only [List.nil_append, List.cons.injEq, true_and] at h2
      exact ⟨String.toList_inj.1 h1.symm, h2⟩
    | cons c w =>
      simp only [List.cons_append, List.cons.injEq] at h2
      obtain ⟨rfl, _⟩ := h2
      exact (bracket_lt hN ha hb h1).elim
  · cases w with
    | nil =>
      simp only [List.append_nil] at h1
      simp only [List.nil_append, List.cons.injEq, true_and] at h2
      exact ⟨String.toList_inj.1 h1, h2.symm⟩
    | cons c w =>
      simp only [List.cons_append, List.cons.injEq] at h2
      obtain ⟨rfl, _⟩ := h2
      exact (bracket_lt hN hb ha h1).elim

/-- The key is a lookup of this one, or the same. -/
def hasKey (N : Names Val) (K : String) : PyExpr Val → Prop
  | .sub e i => render N (.sub e i) = K ∨ hasKey N K e
  | .name n => render N (.name n) = K
  | _ => False

theorem hasKey_wrap {K : String} : ∀ (is : List (PyExpr Val)) (e : PyExpr Val), hasKey N K e →
    hasKey N K (wrapAll false e is)
  | [], _, h => h
  | i :: is, e, h => by
    simp only [wrapAll, wrapItem, Bool.false_eq_true, if_false]
    exact hasKey_wrap is _ (Or.inr h)

/-- The text of lookups. -/
def idxText (N : Names Val) : List (PyExpr Val) → List Char
  | [] => []
  | i :: is => '[' :: ((render N i).toList ++ ']' :: idxText N is)

theorem render_wrap : ∀ (is : List (PyExpr Val)) (e : PyExpr Val),
    (render N (wrapAll false e is)).toList = (render N e).toList ++ idxText N is
  | [], e => by simp [wrapAll, idxText]
  | i :: is, e => by
    simp only [wrapAll, wrapItem, Bool.false_eq_true, if_false, idxText]
    rw [render_wrap is]
    simp [render]

theorem wrapAll_snoc : ∀ (is : List (PyExpr Val)) (e i : PyExpr Val),
    wrapAll false e (is ++ [i]) = .sub (wrapAll false e is) i
  | [], e, i => by simp [wrapAll, wrapItem]
  | j :: is, e, i => by
    simp only [List.cons_append, wrapAll]
    exact wrapAll_snoc is _ i

theorem chain_wrap : ∀ (e : PyExpr Val), isChain e = true → wf N e = true →
    ∃ is, e = wrapAll false (.name varRow) is ∧ ∀ i ∈ is, wf N i = true
  | .sub e i, h, hw => by
    simp only [isChain] at h
    simp only [wf, Bool.and_eq_true] at hw
    obtain ⟨is, he, hi⟩ := chain_wrap e h hw.1.2
    refine ⟨is ++ [i], ?_, ?_⟩
    · rw [wrapAll_snoc, ← he]
    · intro j hj
      rcases List.mem_append.1 hj with hj | hj
      · exact hi j hj
      · rw [List.mem_singleton.1 hj]; exact hw.2
  | .name n, h, _ => by
    simp only [isChain, beq_iff_eq] at h
    exact ⟨[], by rw [h]; rfl, by simp⟩
  | .const _, h, _ => by simp [isChain] at h
  | .getLabel _, h, _ => by simp [isChain] at h
  | .addLabel _ _, h, _ => by simp [isChain] at h
  | .attach _ _, h, _ => by simp [isChain] at h
  | .dot _ _, h, _ => by simp [isChain] at h
  | .getattr _ _, h, _ => by simp [isChain] at h
  | .call _ _ _, h, _ => by simp [isChain] at h
  | .boolop _ _, h, _ => by simp [isChain] at h
  | .eqs _, h, _ => by simp [isChain] at h
  | .not _, h, _ => by simp [isChain] at h
  | .bin _ _ _, h, _ => by simp [isChain] at h
  | .neg _, h, _ => by simp [isChain] at h
  | .ifexp _ _ _, h, _ => by simp [isChain] at h
  | .comp _ _ _ _ _ _ _ _, h, _ => by simp [isChain] at h
  | .display _ _, h, _ => by simp [isChain] at h
  | .getOrDefault _ _ _ _ _ _, h, _ => by simp [isChain] at h
  | .optItems _ _ _ _ _ _, h, _ => by simp [isChain] at h
  | .optDict _ _ _ _ _, h, _ => by simp [isChain] at h
  | .tap _ _ _ _, h, _ => by simp [isChain] at h
  | .setitem _ _ _, h, _ => by simp [isChain] at h
  | .setattr _ _ _, h, _ => by simp [isChain] at h
  | .pop _ _, h, _ => by simp [isChain] at h
  | .delattr _ _, h, _ => by simp [isChain] at h
  | .bad _, h, _ => by simp [isChain] at h
  | .given _ _, h, _ => by simp [isChain] at h

theorem align_idx (hN : PyNames printable N) {cs : List Char} (hc : cs.head? ≠ some '[') :
    ∀ (ks is : List (PyExpr Val)) (e e' : PyExpr Val), (∀ i ∈ ks, wf N i = true) → (∀ i ∈ is, wf N i = true) →
    render N e = render N e' → (hasKey N (render N e) e') →
    idxText N ks <+: idxText N is ++ cs → hasKey N (render N (wrapAll false e ks)) (wrapAll false e' is)
  | [], is, e, e', _, _, _, hk, _ => hasKey_wrap is e' hk
  | k :: ks, [], e, e', _, _, _, _, hp => by
    obtain ⟨r, hr⟩ := hp
    simp only [idxText, List.nil_append, List.cons_append] at hr
    rw [← hr] at hc
    simp at hc
  | k :: ks, i :: is, e, e', hks, his, he, _, hp => by
    obtain ⟨r, hr⟩ := hp
    simp only [idxText, List.cons_append, List.append_assoc, List.cons.injEq, true_and] at hr
    obtain ⟨h1, h2⟩ := bracket hN (hks k (by simp)) (his i (by simp)) hr
    have ht : render N (.sub e k) = render N (.sub e' i) := by simp [render, he, h1]
    simp only [wrapAll, wrapItem, Bool.false_eq_true, if_false]
    exact align_idx hN hc ks is (.sub e k) (.sub e' i) (fun j hj => hks j (by simp [hj]))
      (fun j hj => his j (by simp [hj])) ht (Or.inl ht.symm) ⟨r, h2⟩

/-- A key in lookups begins where they begin, and ends with one of them. -/
theorem align (hN : PyNames printable N) {k e : PyExpr Val} (hk : isChain k = true) (hkw : wf N k = true)
    (he : isChain e = true) (hew : wf N e = true) {cs : List Char} (hc : cs.head? ≠ some '[')
    (hp : (render N k).toList <+: (render N e).toList ++ cs) : hasKey N (render N k) e := by
  obtain ⟨ks, rfl, hks⟩ := chain_wrap k hk hkw
  obtain ⟨is, rfl, his⟩ := chain_wrap e he hew
  rw [render_wrap, render_wrap, List.append_assoc, List.prefix_append_right_inj] at hp
  exact align_idx hN hc ks is _ _ hks his rfl rfl hp

end

end Verif.GroupKeys
