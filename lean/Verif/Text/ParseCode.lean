import Verif.Text.ParseRules
import Verif.Text.LexCode

/-!
# Text: generated code is parsed as the expression meant
-/

set_option autoImplicit false

namespace Verif.Text

open Verif.Expr

section
variable {Val : Type} {N : Names Val}

theorem rd_lit (l : Lit Val) : Rd (litToks N l) (litTree N l) := by
  cases l with
  | none => exact (pr_name _).rd
  | bool b => exact (pr_name _).rd
  | int i =>
    cases i with
    | ofNat n => exact (pr_num _).rd
    | negSucc n => exact rd_neg (pr_num _).rd
  | str s => exact (pr_str _).rd
  | obj v => exact (pr_name _).rd

theorem pr_lit (l : Lit Val) (h : isNeg (.const l) = false) : Pr (litToks N l) (litTree N l) := by
  cases l with
  | none => exact pr_name _
  | bool b => exact pr_name _
  | int i =>
    cases i with
    | ofNat n => exact pr_num _
    | negSucc n => simp [isNeg] at h
  | str s => exact pr_str _
  | obj v => exact pr_name _

theorem allRd_names : ∀ args : List String, AllRd (args.map (fun a => [Tok.name a])) (args.map .name)
  | [] => .nil
  | a :: as => .cons (pr_name a).rd (allRd_names as)

theorem allPairs_of : ∀ {tss : List (List Tok)} {as : List Ast}, AllRd tss as → as.length % 2 = 0 →
    AllPairs (pairToks tss) as
  | _, _, .nil, _ => .nil
  | _, _, .cons _ .nil, h => by simp at h
  | _, _, .cons h1 (.cons h2 h3), h => by
    simp only [List.length_cons] at h
    exact .cons h1 h2 (allPairs_of h3 (by omega))

theorem pr_op (o : BinOp) (ho : o ≠ .index) {ts us : List Tok} {a b : Ast} (h : Rd ts a) (h' : Rd us b) :
    Pr (.lpar :: (ts ++ opToks o ++ (us ++ [.rpar]))) (opTree o a b) := by
  cases o
  case index => exact absurd rfl ho
  case add => exact pr_add h h' (fun _ => rfl) (fun _ => rfl)
  case sub => exact pr_add h h' (fun _ => rfl) (fun _ => rfl)
  case mul => exact pr_mul h h' (fun _ => rfl) (fun _ => rfl)
  case div => exact pr_mul h h' (fun _ => rfl) (fun _ => rfl)
  case mod => exact pr_mul h h' (fun _ => rfl) (fun _ => rfl)
  case floorDiv => exact pr_mul h h' (fun _ => rfl) (fun _ => rfl)
  case is =>
    refine pr_cmp h h' (fun rest => ?_) (fun _ => by simp [opToks, strength])
    obtain ⟨t, l, rfl, h1⟩ := h'.start
    cases t <;> first | rfl | (simp [startTok] at h1; done)
  all_goals exact pr_cmp h h' (fun _ => rfl) (fun _ => by simp [opToks, strength])

theorem isConst_of_name {s : String} (h : isName s = true) : isConstName s = false := by
  simp only [isName, Bool.and_eq_true, Bool.not_eq_true'] at h
  exact h.2

theorem for_of (k : Shape) {v : String} (hv : isName v = true) {it cs : List Tok} {i c : Ast} (h : Rd it i) (hc : Rd cs c) (hasCond : Bool) :
    For k (.name v :: .in_ :: (it ++ if hasCond then .if_ :: cs else [])) v i (if hasCond then [c] else []) := by
  refine ⟨fun elt rest => ?_⟩
  cases hasCond
  · simpa using ev_comp k elt (isConst_of_name hv) h rest
  · simpa using ev_comp_if k elt (isConst_of_name hv) h hc rest

theorem pr_sort (k : Kind) {ts : List Tok} {a : Ast} (h : Pr ts a) (sort : Option (Lit Val × Bool)) :
    Pr (sortToks N k ts sort) (sortTree N k a sort) := by
  cases sort with
  | none => exact h
  | some p =>
    obtain ⟨key, rev⟩ := p
    have h1 : Pr (.name "sorted" :: .lpar :: (ts ++ .comma :: .name "key" :: .assign :: (litToks N key ++ .comma ::
        .name "reverse" :: .assign :: (litToks N (.bool rev) ++ [.rpar]))))
        (.call (.name "sorted") [a, litTree N key, litTree N (.bool rev)] ["key", "reverse"]) := by
      have := pr_call (pr_name "sorted") (.cons h.rd (.cons (rd_lit (N := N) key) (.cons (rd_lit (N := N) (.bool rev)) .nil)))
        (kw := ["key", "reverse"]) (by simp) (by decide) (by decide)
      simpa [kwToks, sepBy] using this
    cases k
    · exact h1
    · simpa [sepBy, sortToks, sortTree] using pr_call' (pr_name "tuple") (.cons h1.rd .nil)
    · exact h1
    · simpa [sepBy, sortToks, sortTree] using pr_call' (pr_name "OrderedDict") (.cons h1.rd .nil)

/-- Readable as an operand if readable where lookups may follow. -/
theorem rd_of_pr {e : PyExpr Val} (h : isNeg e = false → Pr (toks N e) (tree N e)) : Rd (toks N e) (tree N e) := by
  cases hn : isNeg e with
  | false => exact (h hn).rd
  | true =>
    cases e <;> simp only [isNeg, Bool.false_eq_true] at hn
    case const l => simpa [toks, tree] using rd_lit l

theorem isNeg_of_isInt {e : PyExpr Val} (h : isInt e = false) : isNeg e = false := by
  unfold isNeg
  split
  · simp [isInt] at h
  · rfl

theorem treeAll_length : ∀ es : List (PyExpr Val), (treeAll N es).length = es.length
  | [] => rfl
  | e :: es => by simp [treeAll, treeAll_length es]

theorem toksAll_length : ∀ es : List (PyExpr Val), (toksAll N es).length = es.length
  | [] => rfl
  | e :: es => by simp [toksAll, toksAll_length es]

set_option maxHeartbeats 1600000 in
mutual

/-- The tokens of a generated expression are read as the expression meant. -/
theorem pr_of : ∀ (e : PyExpr Val), wf N e = true → isNeg e = false → Pr (toks N e) (tree N e)
  | .name n, _, _ => by simpa [toks, tree] using pr_name n
  | .const l, _, h => by simpa [toks, tree] using pr_lit l h
  | .getLabel l, _, _ => by
    simpa [toks, tree, sepBy] using pr_call' (pr_name "get_by_label_") (.cons (pr_str (l.text N).toList).rd .nil)
  | .addLabel l e, h, _ => by
    simp only [wf, Bool.and_eq_true] at h
    simpa [toks, tree, sepBy] using pr_call' (pr_name "add_label_")
      (.cons (pr_str (l.text N).toList).rd (.cons (rd_of_pr (pr_of e h.2)) .nil))
  | .attach a b, h, _ => by
    simp only [wf, Bool.and_eq_true] at h
    simp only [toks, tree]
    exact pr_attach (rd_of_pr (pr_of a h.1)) (rd_of_pr (pr_of b h.2))
  | .sub e i, h, _ => by
    simp only [wf, Bool.and_eq_true, Bool.not_eq_true'] at h
    simp only [toks, tree]
    exact pr_sub (pr_of e h.1.2 h.1.1) (rd_of_pr (pr_of i h.2))
  | .dot e a, h, _ => by
    simp only [wf, Bool.and_eq_true, Bool.not_eq_true'] at h
    simp only [toks, tree]
    exact pr_dot (pr_of e h.2 (isNeg_of_isInt h.1.1)) (isConst_of_name h.1.2)
  | .getattr e i, h, _ => by
    simp only [wf, Bool.and_eq_true] at h
    simpa [toks, tree, sepBy] using pr_call' (pr_name "getattr")
      (.cons (rd_of_pr (pr_of e h.1)) (.cons (rd_of_pr (pr_of i h.2)) .nil))
  | .call f args kw, h, _ => by
    simp only [wf, Bool.and_eq_true, decide_eq_true_eq, Bool.not_eq_true'] at h
    simp only [toks, tree]
    exact pr_call (pr_of f h.1.2 h.1.1.1.1.1) (rd_all args h.2) (by rw [toksAll_length]; exact h.1.1.1.1.2) h.1.1.2
      (fun k hk => isConst_of_name (List.all_eq_true.mp h.1.1.1.2 k hk))
  | .boolop isAnd es, h, _ => by
    simp only [wf, Bool.and_eq_true, decide_eq_true_eq] at h
    have hr := rd_all es h.2
    have hl : 2 ≤ (toksAll N es).length := by rw [toksAll_length]; exact h.1
    simp only [toks, tree]
    revert hr hl
    generalize toksAll N es = tss
    generalize treeAll N es = as
    intro hr hl
    cases hr with
    | nil => simp at hl
    | cons h1 h2 =>
      cases h2 with
      | nil => simp at hl
      | cons h2 h3 =>
        cases isAnd
        · exact pr_or h1 (.cons h2 h3)
        · exact pr_and h1 (.cons h2 h3)
  | .eqs es, h, _ => by
    simp only [wf, Bool.and_eq_true, decide_eq_true_eq] at h
    have hr := rd_all es h.2
    have hl : 2 ≤ (toksAll N es).length := by rw [toksAll_length]; exact h.1
    simp only [toks, tree]
    revert hr hl
    generalize toksAll N es = tss
    generalize treeAll N es = as
    intro hr hl
    cases hr with
    | nil => simp at hl
    | cons h1 h2 =>
      cases h2 with
      | nil => simp at hl
      | cons h2 h3 => exact pr_eqs h1 (.cons h2 h3)
  | .not e, h, _ => by
    simp only [wf] at h
    simp only [toks, tree]
    exact pr_not (rd_of_pr (pr_of e h))
  | .bin o a b, h, _ => by
    by_cases ho : o = .index
    · subst ho
      simp only [wf, Bool.and_eq_true, Bool.not_eq_true'] at h
      have := pr_group (pr_sub (pr_of a h.1.2 h.1.1) (rd_of_pr (pr_of b h.2))).rd
      simpa [toks, tree, opTree] using this
    · have hw : wf N a = true ∧ wf N b = true := by
        cases o <;> simp_all [wf]
      have := pr_op o ho (rd_of_pr (pr_of a hw.1)) (rd_of_pr (pr_of b hw.2))
      cases o <;> first | exact absurd rfl ho | (simpa only [toks, tree] using this)
  | .neg e, h, _ => by
    simp only [wf] at h
    simp only [toks, tree]
    exact pr_group (rd_neg (rd_of_pr (pr_of e h)))
  | .ifexp t c f, h, _ => by
    simp only [wf, Bool.and_eq_true] at h
    simp only [toks, tree]
    exact pr_ifexp (rd_of_pr (pr_of t h.1.1)) (rd_of_pr (pr_of c h.1.2)) (rd_of_pr (pr_of f h.2))
  | .comp k item value var iter hasCond cond sort, h, _ => by
    simp only [wf, Bool.and_eq_true] at h
    obtain ⟨⟨⟨⟨⟨_, h0⟩, h1⟩, h2⟩, h3⟩, h4⟩ := h
    have r1 := rd_of_pr (pr_of item h1)
    have r2 := rd_of_pr (pr_of value h2)
    have r3 := rd_of_pr (pr_of iter h3)
    have r4 := rd_of_pr (pr_of cond h4)
    simp only [toks, tree]
    apply pr_sort
    cases k
    · exact pr_listcomp r1 (for_of .list h0 r3 r4 hasCond)
    · cases sort with
      | none => exact pr_callgen (pr_name "tuple") r1 (for_of .gen h0 r3 r4 hasCond)
      | some p => exact pr_gencomp r1 (for_of .gen h0 r3 r4 hasCond)
    · exact pr_setcomp r1 (for_of .set h0 r3 r4 hasCond)
    · cases sort with
      | none => exact pr_dictcomp r1 r2 (for_of .dict h0 r3 r4 hasCond)
      | some p =>
        have r5 : Pr (.lpar :: (toks N item ++ .comma :: (toks N value ++ [.rpar])))
            (.display .tuple [tree N item, tree N value]) := by
          have := pr_tuple r1 (.cons r2 .nil) (tl := []) (.inr ⟨rfl, by simp⟩)
          simpa [sepBy] using this
        exact pr_gencomp r5.rd (for_of .gen h0 r3 r4 hasCond)
  | .display k items, h, _ => by
    simp only [wf, Bool.and_eq_true] at h
    have hr := rd_all items h.2
    cases k
    · simp only [toks, tree]
      exact pr_list hr
    · have hne : items ≠ [] := by
        intro he
        subst he
        simp at h
      have hl := toksAll_length (N := N) items
      simp only [toks, tree]
      revert hr hl
      generalize toksAll N items = tss
      generalize treeAll N items = as
      intro hr hl
      cases hr with
      | nil => exact absurd (List.length_eq_zero_iff.1 hl.symm) hne
      | cons h1 h2 => exact pr_tuple h1 h2 (tl := [.comma]) (.inl rfl)
    · have hne : items ≠ [] := by
        intro he
        subst he
        simp at h
      have hl := toksAll_length (N := N) items
      simp only [toks, tree]
      revert hr hl
      generalize toksAll N items = tss
      generalize treeAll N items = as
      intro hr hl
      cases hr with
      | nil => exact absurd (List.length_eq_zero_iff.1 hl.symm) hne
      | cons h1 h2 => exact pr_set h1 h2
    · simp only [toks, tree]
      have h1 : items.length % 2 = 0 := by simpa using h.1
      exact pr_dict (allPairs_of hr (by rw [treeAll_length]; exact h1))
  | .getOrDefault fname body selfGiven self obj dflt, h, _ => by
    simp only [wf, Bool.and_eq_true] at h
    obtain ⟨⟨⟨⟨_, _⟩, h2⟩, h3⟩, h4⟩ := h
    have r2 := rd_of_pr (pr_of self h2)
    have r3 := rd_of_pr (pr_of obj h3)
    have r4 := rd_of_pr (pr_of dflt h4)
    cases selfGiven
    · simpa [toks, tree, sepBy] using pr_call' (pr_name fname) (.cons r3 (.cons r4 .nil))
    · simpa [toks, tree, sepBy] using pr_call' (pr_name fname) (.cons r2 (.cons r3 (.cons r4 .nil)))
  | .optItems k fname flags body obj args, h, _ => by
    simp only [wf, Bool.and_eq_true] at h
    have r := pr_call' (pr_name fname) (.cons (rd_of_pr (pr_of obj h.1.2)) (allRd_names args))
    simpa [toks, tree, sepBy] using pr_call' (pr_name (kindName k)) (.cons r.rd .nil)
  | .optDict fname flags body obj args, h, _ => by
    simp only [wf, Bool.and_eq_true] at h
    have r := pr_call' (pr_name fname) (.cons (rd_of_pr (pr_of obj h.1.2)) (allRd_names args))
    simpa [toks, tree, sepBy] using pr_call' (pr_name "dict") (.cons r.rd .nil)
  | .tap fname obj stmts args, h, _ => by
    simp only [wf, Bool.and_eq_true] at h
    have r := pr_call' (pr_name fname) (.cons (rd_of_pr (pr_of obj h.1.2)) (allRd_names args))
    simpa [toks, tree, sepBy] using r
  | .setattr o k v, h, _ => by
    simp only [wf, Bool.and_eq_true] at h
    simpa [toks, tree, sepBy] using pr_call' (pr_name "setattr") (.cons (rd_of_pr (pr_of o h.1.1))
      (.cons (rd_of_pr (pr_of k h.1.2)) (.cons (rd_of_pr (pr_of v h.2)) .nil)))
  | .pop o k, h, _ => by
    simp only [wf, Bool.and_eq_true, Bool.not_eq_true'] at h
    simpa [toks, tree, sepBy] using pr_call' (pr_dot (pr_of o h.1.2 (isNeg_of_isInt h.1.1)) (s := "pop") (by decide)) (.cons (rd_of_pr (pr_of k h.2)) .nil)
  | .delattr o k, h, _ => by
    simp only [wf, Bool.and_eq_true] at h
    simpa [toks, tree, sepBy] using pr_call' (pr_name "delattr") (.cons (rd_of_pr (pr_of o h.1))
      (.cons (rd_of_pr (pr_of k h.2)) .nil))
  | .setitem _ _ _, h, _ => by simp [wf] at h
  | .bad _, h, _ => by simp [wf] at h
  | .given _ _, h, _ => by simp [wf] at h

theorem rd_all : ∀ (es : List (PyExpr Val)), wfAll N es = true → AllRd (toksAll N es) (treeAll N es)
  | [], _ => .nil
  | e :: es, h => by
    simp only [wfAll, Bool.and_eq_true] at h
    exact .cons (rd_of_pr (pr_of e h.1)) (rd_all es h.2)

end

/-- The text of a generated expression is parsed as the expression meant. -/
theorem parses_render {printable : Char → Bool} (hN : PyNames printable N) (e : PyExpr Val) (h : wf N e = true) :
    Parses (render N e) (tree N e) := by
  refine ⟨_, lex_render hN e h, ?_⟩
  have := (rd_of_pr (pr_of e h)).expr (rest := []) (by simp [strength])
  simpa [Ev] using this

end

end Verif.Text
