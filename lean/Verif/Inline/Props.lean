import Verif.Inline.Lemmas
import Verif.Text.Props

/-!
# Inline: property C69

The arguments of an inline expression are operands of it.  The reference is Python's grammar (`Verif/Text/Lex.lean`,
`Verif/Text/Parse.lean`).
-/

set_option autoImplicit false

namespace Verif.Inline

open Verif.Text Verif.Expr

/-- How the text is read in front of anything, and as what. -/
theorem inline_reads {code : String} {as : Args Operand} (hok : ∀ o ∈ as.all, o.Ok) {a : Ast} (ht : Template code as a)
    {s : String} (hs : inlineText code as.codes = some s) :
    ∃ ts, Reads false s ts ∧ Pr ts (fillA (fillOf as) a) := by
  obtain ⟨l, ts, n, h1, h2, h3, h4⟩ := ht
  simp only [inlineText, h1, Option.bind_some, Option.map_eq_some_iff] at hs
  obtain ⟨t, ht, rfl⟩ := hs
  have hσ := fills_of hok
  have g := parse_fill hσ n .paren ts a [] (safe_tail h3) rfl h4
  refine ⟨.lpar :: fill (fillOf as) ts, fun cs _ _ => ?_, pr_of_paren g.ev⟩
  have e := lex_text hok cs l .start ts t h2 ht
  have hp : step .start '(' = some ([.lpar], .start) := by decide +kernel
  simp only [String.toList_append, String.toList_ofList, List.append_assoc]
  rw [show "(".toList = ['('] by decide +kernel, show ")".toList = [')'] by decide +kernel]
  simp only [List.cons_append, List.nil_append, lexFrom, hp, e]
  cases lexFrom .start cs <;> simp

/-- The inline expression as an argument of another one. -/
noncomputable def nested (s : String) (a : Ast) (h : ∃ ts, Reads false s ts ∧ Pr ts a) : Operand :=
  ⟨s, h.choose, a, true⟩

theorem nested_ok {s : String} {a : Ast} (h : ∃ ts, Reads false s ts ∧ Pr ts a) : (nested s a h).Ok :=
  ⟨h.choose_spec.1, h.choose_spec.2.rd, fun _ => h.choose_spec.2⟩

theorem parses_of_reads {s : String} {a : Ast} (h : ∃ ts, Reads false s ts ∧ Pr ts a) : Parses s a := by
  obtain ⟨ts, h1, h2⟩ := h
  have h0 := h1 [] rfl (by simp)
  rw [List.append_nil] at h0
  refine ⟨ts, ?_, ?_⟩
  · rw [lex, h0]
    simp [lexFrom, final]
  · simpa [Ev] using h2.rd.expr (rest := []) (by simp [strength])

/-- **C69**: the text of an inline expression is read as the template with the trees of the arguments in the place of
their fields, and as nothing else.  Operators of the template never take an argument apart, and operators of an argument
never reach into the template.  What is missing: `Template` excludes fields in strings and beside letters, digits and
quotes, lookups and calls directly behind an argument whose code is a number (for which the claim is false,
`C69_refuted_negative`), comprehensions with several `for`, and what the grammar of `Verif/Text/Parse.lean` does not
have. -/
theorem C69_operands_partial {code : String} {as : Args Operand} (hok : ∀ o ∈ as.all, o.Ok) {a : Ast}
    (ht : Template code as a) {s : String} (hs : inlineText code as.codes = some s) (b : Ast) :
    Parses s b ↔ b = fillA (fillOf as) a :=
  have h := parses_of_reads (inline_reads hok ht hs)
  ⟨fun hb => parses_unique hb h, fun hb => hb ▸ h⟩

/-- **C69** for what stands around it: an inline expression is an operand itself, for another inline expression too. -/
theorem C69_nested_partial {code : String} {as : Args Operand} (hok : ∀ o ∈ as.all, o.Ok) {a : Ast}
    (ht : Template code as a) {s : String} (hs : inlineText code as.codes = some s) :
    ∃ o : Operand, o.Ok ∧ o.code = s ∧ o.tree = fillA (fillOf as) a ∧ o.prim = true :=
  ⟨nested s _ (inline_reads hok ht hs), nested_ok _, rfl, rfl, rfl⟩

section
variable {Val : Type} {N : Names Val} {printable : Char → Bool}

/-- The code of an expression as an argument. -/
def operand (N : Names Val) (e : PyExpr Val) : Operand := ⟨render N e, toks N e, tree N e, !isInt e⟩

theorem operand_ok (hN : PyNames printable N) {e : PyExpr Val} (h : wf N e = true) : (operand N e).Ok where
  reads := by
    have := reads_of hN e h
    simpa [operand] using this
  rd := rd_of_pr (pr_of e h)
  pr := fun hp => pr_of e h (isNeg_of_isInt (by simpa [operand] using hp))

/-- The arguments of `pass_args` as operands. -/
def operands (N : Names Val) (as : Args (PyExpr Val)) : Args Operand :=
  ⟨as.args.map (operand N), as.kwargs.map fun p => (p.1, operand N p.2)⟩

/-- **C69** for the codes of conversions: all arguments on the same input. -/
theorem C69_conversions_partial (hN : PyNames printable N) (as : Args (Conv Val)) (esc : Bool) (e : PyExpr Val)
    (p : List Nat) (k : Option (Lit Val)) (hk : ∀ l, e = .const l → k = some l) (he : wf N e = true)
    (hc : ∀ c ∈ as.all, readable c k = true) {code : String} {os : Args Operand}
    (ho : os = operands N ⟨as.args.map fun c => gen N esc c e p, as.kwargs.map fun q => (q.1, gen N esc q.2 e p)⟩)
    {a : Ast} (ht : Template code os a) {s : String} (hs : inlineText code os.codes = some s) (b : Ast) :
    Parses s b ↔ b = fillA (fillOf os) a := by
  refine C69_operands_partial ?_ ht hs b
  subst ho
  intro o hm
  simp only [Args.all, operands, List.mem_append, List.mem_map, List.map_map, Function.comp_apply] at hm
  rcases hm with ⟨c, hc', rfl⟩ | ⟨q, hq, rfl⟩
  · exact operand_ok hN (wf_gen hN c esc e p k hk he (hc c (by simp [Args.all, hc'])))
  · exact operand_ok hN (wf_gen hN q.2 esc e p k hk he (hc q.2 (by
      simp only [Args.all, List.mem_append, List.mem_map]
      exact .inr ⟨q, hq, rfl⟩)))

/-! ## A concrete case -/

/-- `c.inline_expr("-{0} ** …")`: here `{} * {x} - {}[0]` with `c.this() + 1`, `c.item("a") - 2` and `c.this()`. -/
def demoArgs : Args (PyExpr Nat) :=
  ⟨[gen demo false (.bin .add .this (.naive (.int 1))) (.name "data_") [0], gen demo false .this (.name "data_") [0]],
    [("x", gen demo false (.bin .sub (.lookup false .this [.naive (.str "a")]) (.naive (.int (-2)))) (.name "data_") [0])]⟩

example : inlineText "{} * {x} - {}[0]" (operands demo demoArgs).codes =
    some "((data_ + 1) * (data_['a'] - -2) - data_[0])" := by decide +kernel

theorem demo_ok : ∀ o ∈ (operands demo demoArgs).all, o.Ok := by
  intro o ho
  simp only [Args.all, operands, demoArgs, List.map_cons, List.map_nil, List.cons_append, List.nil_append,
    List.mem_cons, List.not_mem_nil, or_false] at ho
  rcases ho with rfl | rfl | rfl <;> exact operand_ok demo_names (by decide +kernel)

/-- How the template is read. -/
theorem demo_template : Template "{} * {x} - {}[0]" (operands demo demoArgs)
    (.bin .sub (.bin .mul (.name "{0") (.name "{x")) (.sub (.name "{1") (.num 0))) :=
  template_sound (n := 40) (by decide +kernel)

example : Parses "((data_ + 1) * (data_['a'] - -2) - data_[0])"
    (.bin .sub (.bin .mul (.bin .add (.name "data_") (.num 1))
      (.bin .sub (.sub (.name "data_") (.str ['a'])) (.neg (.num 2)))) (.sub (.name "data_") (.num 0))) :=
  (C69_operands_partial demo_ok demo_template (by decide +kernel) _).mpr (by decide +kernel)

/-- Two levels: the inner subtraction is not torn apart by the outer multiplication. -/
example : ∃ s, inlineText "{0} * 2" ⟨["((data_ + 1) * (data_['a'] - -2) - data_[0])"], []⟩ = some s ∧
    Parses s (.bin .mul (.bin .sub (.bin .mul (.bin .add (.name "data_") (.num 1))
      (.bin .sub (.sub (.name "data_") (.str ['a'])) (.neg (.num 2)))) (.sub (.name "data_") (.num 0))) (.num 2)) := by
  obtain ⟨o, h1, h2, h3, h4⟩ := C69_nested_partial demo_ok demo_template
    (s := "((data_ + 1) * (data_['a'] - -2) - data_[0])") (by decide +kernel)
  refine ⟨"(((data_ + 1) * (data_['a'] - -2) - data_[0]) * 2)", by decide +kernel, ?_⟩
  have ht : Template "{0} * 2" ⟨[o], []⟩ (.bin .mul (.name "{0") (.num 2)) :=
    template_bare (show Template "{0} * 2" ⟨[bare], []⟩ _ from template_sound (n := 40) (by decide +kernel))
  refine (C69_operands_partial (as := ⟨[o], []⟩) (fun q hq => ?_) ht ?_ _).mpr ?_
  · simp only [Args.all, List.map_nil, List.append_nil, List.mem_singleton] at hq
    exact hq ▸ h1
  · simp only [Args.codes, List.map_cons, List.map_nil, h2]
    decide +kernel
  · have e0 : fillOf ⟨[o], []⟩ "{0" = some (o.toks, o.tree, o.prim) := by
      rw [show "{0" = ph ['0'] by decide +kernel, fillOf_ph]
      rfl
    simp only [fillA, e0, h3]
    decide +kernel

/-! ## Joins -/

/-- The template of a left join means a generator of pairs of a left item and a generator of right items. -/
theorem left_template (l r c : Operand) (hc : Bool) : Template (leftTemplate hc) (leftArgs l r c)
    (.comp .gen [.display .tuple [.name "left_item",
      .comp .gen [.name "right_item"] "right_item" (.name "{right_items") (if hc then [.name "{condition"] else [])]]
      "left_item" (.name "{left_items") []) := by
  refine template_bare ?_
  have : (leftArgs l r c).bare = leftArgs bare bare bare := rfl
  rw [this]
  cases hc <;> exact template_sound (n := 60) (by decide +kernel)

/-- The arguments by their names. -/
theorem get_left {α : Type} (l r c : α) {k : List Char} (hk : isNumber k = false) : (leftArgs l r c).get k =
    if "left_items".toList = k then some l else if "right_items".toList = k then some r
    else if "condition".toList = k then some c else none := by
  unfold Args.get leftArgs
  rw [hk]
  simp only [List.find?_cons, List.find?_nil, Bool.false_eq_true, if_false]
  split
  · next h => rw [if_pos (by simpa using h)]; rfl
  · next h =>
    rw [if_neg (by simpa using h)]
    split
    · next h => rw [if_pos (by simpa using h)]; rfl
    · next h =>
      rw [if_neg (by simpa using h)]
      split
      · next h => rw [if_pos (by simpa using h)]; rfl
      · next h => rw [if_neg (by simpa using h)]; rfl

/-- The texts of a left join. -/
theorem left_text (l r c : String) (cond : Bool) : inlineText (leftTemplate cond) (leftArgs l r c) =
    some ("((left_item, (right_item for right_item in " ++ r ++ (if cond then " if " ++ c else "") ++
      ")) for left_item in " ++ l ++ ")") := by
  have g1 : (leftArgs l r c).get "left_items".toList = some l := by rw [get_left _ _ _ (by decide +kernel), if_pos rfl]
  have g2 : (leftArgs l r c).get "right_items".toList = some r := by
    rw [get_left _ _ _ (by decide +kernel), if_neg (by decide +kernel), if_pos rfl]
  have g3 : (leftArgs l r c).get "condition".toList = some c := by
    rw [get_left _ _ _ (by decide +kernel), if_neg (by decide +kernel), if_neg (by decide +kernel), if_pos rfl]
  have hl : "((left_item, (right_item for right_item in ".toList =
      "(".toList ++ "(left_item, (right_item for right_item in ".toList := by decide +kernel
  have hn : "".toList = [] := by decide +kernel
  cases cond with
  | false =>
    have hp : parts (leftTemplate false) = some ("(left_item, (right_item for right_item in ".toList.map .ch ++
        .code "right_items".toList :: (")) for left_item in ".toList.map .ch ++ [.code "left_items".toList])) := by
      decide +kernel
    rw [inlineText, hp]
    simp only [Option.bind_some, put_chars, put, g1, g2, Option.map_some]
    refine congrArg some (String.toList_inj.mp ?_)
    simp only [String.toList_append, String.toList_ofList, List.append_assoc, List.append_nil, hl, hn, if_true,
      Bool.false_eq_true, if_false, List.nil_append]
  | true =>
    have hp : parts (leftTemplate true) = some ("(left_item, (right_item for right_item in ".toList.map .ch ++
        .code "right_items".toList :: (" if ".toList.map .ch ++ .code "condition".toList ::
        (")) for left_item in ".toList.map .ch ++ [.code "left_items".toList]))) := by
      decide +kernel
    rw [inlineText, hp]
    simp only [Option.bind_some, put_chars, put, g1, g2, g3, Option.map_some]
    refine congrArg some (String.toList_inj.mp ?_)
    simp only [String.toList_append, String.toList_ofList, List.append_assoc, List.append_nil, hl, hn, if_true,
      Bool.false_eq_true, if_false, List.nil_append]

/-- **C69** for left and outer joins: the loop over the left items goes over the tree of the left collection, the inner
loop over the tree of the right items, under the tree of the condition.  What is missing: inner joins, whose
comprehension has two `for`. -/
theorem C69_left_join_partial {l r c : Operand} (hl : l.Ok) (hr : r.Ok) (hc : c.Ok) (cond : Bool) :
    ∃ s, inlineText (leftTemplate cond) (leftArgs l.code r.code c.code) = some s ∧ ∀ b, Parses s b ↔
      b = .comp .gen [.display .tuple [.name "left_item",
        .comp .gen [.name "right_item"] "right_item" r.tree (if cond then [c.tree] else [])]] "left_item" l.tree [] := by
  refine ⟨_, left_text l.code r.code c.code cond, fun b => ?_⟩
  have hs : inlineText (leftTemplate cond) (leftArgs l r c).codes = _ := left_text l.code r.code c.code cond
  have hok : ∀ o ∈ (leftArgs l r c).all, o.Ok := by
    intro o ho
    simp only [Args.all, leftArgs, List.nil_append, List.map_cons, List.map_nil, List.mem_cons, List.not_mem_nil,
      or_false] at ho
    rcases ho with rfl | rfl | rfl <;> assumption
  rw [C69_operands_partial hok (left_template l r c cond) hs b]
  have e1 : fillOf (leftArgs l r c) "left_item" = none := by
    have : "left_item".toList = ['l', 'e', 'f', 't', '_', 'i', 't', 'e', 'm'] := by decide +kernel
    simp [fillOf, this]
  have e2 : fillOf (leftArgs l r c) "right_item" = none := by
    have : "right_item".toList = ['r', 'i', 'g', 'h', 't', '_', 'i', 't', 'e', 'm'] := by decide +kernel
    simp [fillOf, this]
  have e3 : fillOf (leftArgs l r c) "{right_items" = some (r.toks, r.tree, r.prim) := by
    rw [show "{right_items" = ph "right_items".toList by decide +kernel, fillOf_ph, get_left _ _ _ (by decide +kernel),
      if_neg (by decide +kernel), if_pos rfl]
    rfl
  have e4 : fillOf (leftArgs l r c) "{condition" = some (c.toks, c.tree, c.prim) := by
    rw [show "{condition" = ph "condition".toList by decide +kernel, fillOf_ph, get_left _ _ _ (by decide +kernel),
      if_neg (by decide +kernel), if_neg (by decide +kernel), if_pos rfl]
    rfl
  have e5 : fillOf (leftArgs l r c) "{left_items" = some (l.toks, l.tree, l.prim) := by
    rw [show "{left_items" = ph "left_items".toList by decide +kernel, fillOf_ph, get_left _ _ _ (by decide +kernel),
      if_pos rfl]
    rfl
  cases cond <;> simp [fillA, fillAs, e1, e2, e3, e4, e5]

example : Parses
    "((left_item, (right_item for right_item in right_ if (left_item == right_item[1]))) for left_item in data_)"
    (.comp .gen [.display .tuple [.name "left_item", .comp .gen [.name "right_item"] "right_item" (.name "right_")
      [.cmp (.name "left_item") [.eq] [.sub (.name "right_item") (.num 1)]]]] "left_item" (.name "data_") []) := by
  have ok : ∀ e : PyExpr Nat, wf demo e = true → (operand demo e).Ok := fun _ h => operand_ok demo_names h
  obtain ⟨s, hs, h⟩ := C69_left_join_partial (ok (.name "data_") (by decide +kernel)) (ok (.name "right_") (by decide +kernel))
    (ok (.eqs [.name "left_item", .sub (.name "right_item") (.const (.int 1))]) (by decide +kernel)) true
  have e : s = "((left_item, (right_item for right_item in right_ if (left_item == right_item[1]))) for left_item in data_)" := by
    have h2 : inlineText (leftTemplate true) (leftArgs "data_" "right_" "(left_item == right_item[1])") =
      some "((left_item, (right_item for right_item in right_ if (left_item == right_item[1]))) for left_item in data_)" := by
      decide +kernel
    have h3 : leftArgs (operand demo (.name "data_" : PyExpr Nat)).code (operand demo (.name "right_" : PyExpr Nat)).code
        (operand demo (.eqs [.name "left_item", .sub (.name "right_item") (.const (.int 1))] : PyExpr Nat)).code =
        leftArgs "data_" "right_" "(left_item == right_item[1])" := by
      unfold operand
      rw [show render demo (.eqs [.name "left_item", .sub (.name "right_item") (.const (.int 1))]) =
        "(left_item == right_item[1])" by decide +kernel, show render demo (.name "data_") = "data_" by decide +kernel,
        show render demo (.name "right_") = "right_" by decide +kernel]
    rw [h3, h2] at hs
    exact (Option.some.inj hs).symm
  exact e ▸ (h _).mpr (by decide +kernel)

/-! ## What is false -/

/-- The full statement is false: a lookup behind a negative number, `c.inline_expr("{0}[0]").pass_args(-1)`. -/
theorem C69_refuted_negative : (operand demo (.const (.int (-1)))).Ok ∧
    inlineText "{0}[0]" ⟨[(operand demo (.const (.int (-1)))).code], []⟩ = some "(-1[0])" ∧
    (operand demo (.const (.int (-1)))).tree = .neg (.num 1) ∧ ¬ Parses "(-1[0])" (.sub (.neg (.num 1)) (.num 0)) ∧
    Parses "(-1[0])" (.neg (.sub (.num 1) (.num 0))) := by
  have h2 : Parses "(-1[0])" (.neg (.sub (.num 1) (.num 0))) := parses_of_parseText (n := 40) (by decide +kernel)
  refine ⟨operand_ok demo_names (by decide +kernel), by decide +kernel, by decide +kernel, fun h => ?_, h2⟩
  exact absurd (parses_unique h h2) (by decide +kernel)

/-- Arguments are operands but not closed: a variable of the template captures a name of an argument, so different inline
expressions have the same text (`c.inline_expr("[x + {0} for x in {1}]").pass_args(c.input_arg("x"), c.this())`). -/
theorem C69_refuted_capture : inlineText "[x + {0} for x in {1}]" ⟨["x", "data_"], []⟩ =
    inlineText "[x + x for x in {0}]" ⟨["data_"], []⟩ ∧
    inlineText "[x + {0} for x in {1}]" ⟨["x", "data_"], []⟩ = some "([x + x for x in data_])" := by
  decide +kernel

end

end Verif.Inline
