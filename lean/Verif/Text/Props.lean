import Verif.Text.GenLemmas
import Verif.Text.ParseMono

/-!
# Text: properties C48 and C49

The reference is Python's grammar (`Lex.lean`, `Parse.lean`).  The model of code generation is
`Verif/Expr/Model.lean`; texts are `render`.
-/

set_option autoImplicit false

namespace Verif.Text

open Verif.Expr

section
variable {Val : Type} {N : Names Val} {printable : Char → Bool}

/-! ## Names for the examples -/

/-- Printable ASCII characters. -/
def ascii (c : Char) : Bool := ' ' ≤ c && c ≤ '~'

/-- Names for the examples: objects are numbers, bound to names. -/
def demo : Names Nat where
  const
    | .none => "None"
    | .bool b => if b then "True" else "False"
    | .int i => String.ofList (reprInt i)
    | .str s => String.ofList (reprStr ascii s.toList)
    | .obj _ => "obj_value"
  param _ := "i_"
  helper _ _ := "helper_"
  cached _ := "cached_val_1"

theorem demo_names : PyNames ascii demo where
  none := rfl
  bool _ := rfl
  int _ := rfl
  str _ := rfl
  obj _ := show isName "obj_value" = true by decide +kernel
  param _ := show isName "i_" = true by decide +kernel
  helper _ _ := show isName "helper_" = true by decide +kernel
  cached _ := show plainText "cached_val_1".toList = true by decide +kernel

/-! ## C48: generated expressions keep their operator structure -/

/-- **C48** for generated expressions: the text of an expression is read as that expression (`tree` puts the
operands of every node of the code below the same node), and as nothing else. -/
theorem C48_expression (hN : PyNames printable N) (e : PyExpr Val) (h : wf N e = true) (a : Ast) :
    Parses (render N e) a ↔ a = tree N e :=
  ⟨fun ha => parses_unique ha (parses_render hN e h), fun ha => ha ▸ parses_render hN e h⟩

example : render demo (.bin .mul (.bin .add (.name "a") (.const (.int (-1)))) (.neg (.const (.int (-2))))) =
    "((a + -1) * (--2))" := by decide +kernel

example : Parses (render demo (.bin .mul (.bin .add (.name "a") (.const (.int (-1)))) (.neg (.const (.int (-2))))))
    (.bin .mul (.bin .add (.name "a") (.neg (.num 1))) (.neg (.neg (.num 2)))) :=
  (C48_expression demo_names (.bin .mul (.bin .add (.name "a") (.const (.int (-1)))) (.neg (.const (.int (-2)))))
    (by decide +kernel) _).mpr rfl

/-- **C48** for all readable conversions, on any input code: pipes, conditions with a cached input, defaults,
optional items, named results and mutations included.  What is missing: `readable` excludes lookups and calls on
number constants, labels which need escaping and attribute names which are keywords, for which the claim is false
(`C48_refuted_*`), and conversions whose code does not compile. -/
theorem C48_conversion_partial (hN : PyNames printable N) (c : Conv Val) (esc : Bool) (e : PyExpr Val) (p : List Nat)
    (k : Option (Lit Val)) (hk : ∀ l, e = .const l → k = some l) (he : wf N e = true) (hc : readable c k = true)
    (a : Ast) : Parses (render N (gen N esc c e p)) a ↔ a = tree N (gen N esc c e p) :=
  C48_expression hN _ (wf_gen hN c esc e p k hk he hc) a

/-- The operators of a conversion of a variable are the operators of its text, with the same operands
(`describe`). -/
theorem C48_operators_partial (hN : PyNames printable N) (c : Conv Val) (x : String) (p : List Nat)
    (hx : isName x = true) (hd : direct c = true) (hc : readable c none = true) (a : Ast) :
    Parses (render N (gen N false c (.name x) p)) a ↔ a = describe N c x := by
  rw [C48_conversion_partial hN c false (.name x) p none (fun _ h => nomatch h) hx hc,
    tree_gen hN c none hd hc false x (wordy_of_name hx) p]

/-- An example with all kinds of operators: `((c.item("a") + 1) * -c.item("b")).and_(c.this().is_(None), …)`. -/
def sample : Conv Nat :=
  .boolop true [
    .bin .mul (.bin .add (.lookup false .this [.naive (.str "a")]) (.naive (.int 1)))
      (.neg (.lookup true .this [.naive (.str "b")])),
    .not (.boolop false [.eqs [.this, .naive (.int (-5))], .bin .is .this (.naive .none)]),
    .ifc (.bin .lt .this (.arg "limit")) (.call (.naive (.obj 7)) [.this, .naive (.bool true)] ["key"])
      (.comp .list (.bin .floorDiv .this (.naive (.int 2))) .this true (.bin .notIn .this (.label "seen"))
        (some (.none, true))) true]

example : render demo (gen demo false sample (.name "data_") [0]) =
    "(((data_['a'] + 1) * (-data_.b)) and (not ((data_ == -5) or (data_ is None))) and " ++
    "(obj_value(data_,key=True) if (data_ < limit) else " ++
    "sorted([(i_ // 2) for i_ in data_ if (i_ not in get_by_label_('seen'))], key=None,reverse=True)))" := by
  decide +kernel

example : Parses (render demo (gen demo false sample (.name "data_") [0]))
    (.bool true [
      .bin .mul (.bin .add (.sub (.name "data_") (.str ['a'])) (.num 1)) (.neg (.attr (.name "data_") "b")),
      .not (.bool false [.cmp (.name "data_") [.eq] [.neg (.num 5)], .cmp (.name "data_") [.is] [.name "None"]]),
      .ifexp (.call (.name "obj_value") [.name "data_", .name "True"] ["key"])
        (.cmp (.name "data_") [.lt] [.name "limit"])
        (.call (.name "sorted") [.comp .list [.bin .floorDiv (.name "i_") (.num 2)] "i_" (.name "data_")
          [.cmp (.name "i_") [.notIn] [.call (.name "get_by_label_") [.str "seen".toList] []]],
          .name "None", .name "True"] ["key", "reverse"])]) :=
  (C48_operators_partial demo_names sample "data_" [0] (by decide +kernel) (by decide +kernel) (by decide +kernel) _).mpr
    (by decide +kernel)

/-- The statements of a converter (`genStages`): every stage of a pipe is read as meant. -/
theorem C48_stages_partial (hN : PyNames printable N) (var : String → String) (hv : ∀ t, isName (var t) = true) :
    ∀ (cs : List (Conv Val)) (input : String) (n : Nat), isName input = true →
    (∀ c ∈ cs, readable c none = true) →
    ∀ s ∈ genStages N var cs input n, isName s.1 = true ∧ Parses (render N s.2) (tree N s.2)
  | [], _, _, _, _, s, hs => by simp [genStages] at hs
  | c :: cs, input, n, hi, hr, s, hs => by
    simp only [genStages, List.mem_cons] at hs
    rcases hs with rfl | hs
    · exact ⟨hv _, (C48_conversion_partial hN c false (.name input) [n] none (fun _ h => nomatch h) hi
        (hr c (by simp)) _).mpr rfl⟩
    · exact C48_stages_partial hN var hv cs (var input) (n + 1) (hv _) (fun c hc => hr c (by simp [hc])) s hs

example : ∀ s ∈ genStages demo (fun _ => "pipe_") [sample, .lookup false .this [.naive (.int (-1))]] "data_" 0,
    isName s.1 = true ∧ Parses (render demo s.2) (tree demo s.2) :=
  C48_stages_partial demo_names _ (fun _ => by decide +kernel) _ _ _ (by decide +kernel) (by
    intro c hc
    simp only [List.mem_cons, List.not_mem_nil, or_false] at hc
    rcases hc with rfl | rfl <;> decide +kernel)

theorem Pc.w_setitem : Piece "] = " [.rbr, .assign] := by decide +kernel

/-- The assignment written by `SetItem` (mutations.py 27-31) is read as an assignment of the value to the element. -/
theorem C48_assignment (hN : PyNames printable N) (o k v : PyExpr Val) (ho : wf N (.sub o k) = true)
    (hv : wf N v = true) : ∃ ts us, lex (render N (.setitem o k v)) = some (ts ++ .assign :: us) ∧
      Ev .expr ts (.sub (tree N o) (tree N k), []) ∧ Ev .expr us (tree N v, []) := by
  refine ⟨toks N (.sub o k), toks N v, ?_, ?_, ?_⟩
  · have h := ho
    simp only [wf, Bool.and_eq_true] at h
    have := reads_of hN v hv [] rfl (by simp)
    simp only [lex, render, String.toList_append, List.append_assoc, toks]
    rw [(reads_of hN o h.1.2).andThen Pc.w_lbr, (reads_of hN k h.2).andThen Pc.w_setitem]
    rw [List.append_nil] at this
    rw [this]
    simp [lexFrom, final]
  · have : tree N (.sub o k) = .sub (tree N o) (tree N k) := by rw [tree]
    rw [← this]
    simpa using (rd_of_pr (pr_of _ ho)).expr (rest := []) (by simp [strength])
  · simpa using (rd_of_pr (pr_of _ hv)).expr (rest := []) (by simp [strength])

example : render demo (.setitem (.name "data_") (.const (.str "a")) (.bin .add (.name "data_") (.const (.int 1)))) =
    "data_['a'] = (data_ + 1)" := by decide +kernel

/-- The full statement of C48 is false: an index behind a negative constant is read as an index of the positive
one.  `c.naive(-1).item(0)` becomes `-1[0]`. -/
theorem C48_refuted_negative : ∃ c : Conv Nat, direct c = true ∧
    render demo (gen demo false c (.name "data_") [0]) = "-1[0]" ∧
    ¬ Parses "-1[0]" (describe demo c "data_") ∧ Parses "-1[0]" (.neg (.sub (.num 1) (.num 0))) := by
  refine ⟨.lookup false (.naive (.int (-1))) [.naive (.int 0)], by decide +kernel, by decide +kernel, fun h => ?_, ?_⟩
  · have := parses_unique h (parses_of_parseText (n := 40) (a := .neg (.sub (.num 1) (.num 0))) (by decide +kernel))
    exact absurd this (by decide +kernel)
  · exact parses_of_parseText (n := 40) (by decide +kernel)

/-- The text of an attribute of a number is no expression: `c.naive(5).attr("real")` becomes `5.real`. -/
theorem C48_refuted_number : ∃ c : Conv Nat, direct c = true ∧
    render demo (gen demo false c (.name "data_") [0]) = "5.real" ∧ ∀ a, ¬ Parses "5.real" a := by
  refine ⟨.lookup true (.naive (.int 5)) [.naive (.str "real")], by decide +kernel, by decide +kernel, ?_⟩
  rintro a ⟨ts, h, _⟩
  have : lex "5.real" = none := by decide +kernel
  rw [this] at h
  cases h

/-- A label with a quote in its name: `c.label("it's")`. -/
theorem C48_refuted_label : ∃ c : Conv Nat, direct c = true ∧
    render demo (gen demo false c (.name "data_") [0]) = "get_by_label_('it's')" ∧
    ∀ a, ¬ Parses "get_by_label_('it's')" a := by
  refine ⟨.label "it's", by decide +kernel, by decide +kernel, ?_⟩
  rintro a ⟨ts, h, _⟩
  have : lex "get_by_label_('it's')" = none := by decide +kernel
  rw [this] at h
  cases h

/-! ## C49: attributes -/

/-- `valid_attr = re.compile(r"^'[A-Za-z][a-zA-Z0-9_]*'$")` (base.py 1349) and `path_item[1:-1]` (1353): the text
between the quotes if the expression matches.  `$` matches at the end and before a newline at the end. -/
def matchAttr (t : List Char) : Option (List Char) :=
  match t with
  | '\'' :: rest =>
    let body := rest.takeWhile (fun c => c.isAlphanum || c == '_')
    match rest.drop body.length with
    | ['\''] => if (body.head?.any Char.isAlpha) then some body else none
    | ['\'', '\n'] => if (body.head?.any Char.isAlpha) then some (body ++ ['\'']) else none
    | _ => none
  | _ => none

/-- `GetAttr.wrap_path_item` (base.py 1351-1354) on texts. -/
def wrapText (code path : String) : String :=
  match matchAttr path.toList with
  | some a => code ++ "." ++ String.ofList a
  | none => "getattr(" ++ code ++ ", " ++ path ++ ")"

theorem takeWhile_all {α : Type} (q : α → Bool) : ∀ (l : List α), (l.takeWhile q).all q = true
  | [] => rfl
  | a :: l => by
    rw [List.takeWhile_cons]
    split
    · rename_i h
      simp [h, takeWhile_all q l]
    · rfl

theorem takeWhile_drop {α : Type} (q : α → Bool) : ∀ (l : List α),
    l.takeWhile q ++ l.drop (l.takeWhile q).length = l
  | [] => rfl
  | a :: l => by
    rw [List.takeWhile_cons]
    split
    · simp [takeWhile_drop q l]
    · rfl

/-- What a match of `valid_attr` looks like. -/
theorem matchAttr_some {t b : List Char} (h : matchAttr t = some b) :
    (t = '\'' :: (b ++ ['\'']) ∧ b.all (fun c => c.isAlphanum || c == '_') = true ∧ b.head?.any Char.isAlpha = true) ∨
    ∃ b', t = '\'' :: (b' ++ ['\'', '\n']) ∧ b'.all (fun c => c.isAlphanum || c == '_') = true := by
  unfold matchAttr at h
  split at h
  · rename_i rest
    simp only at h
    have h1 := takeWhile_drop (fun c : Char => c.isAlphanum || c == '_') rest
    have h2 := takeWhile_all (fun c : Char => c.isAlphanum || c == '_') rest
    generalize rest.takeWhile (fun c : Char => c.isAlphanum || c == '_') = body at h h1 h2
    generalize rest.drop body.length = d at h h1
    split at h
    · split at h
      · rename_i ha
        cases h
        exact .inl ⟨by rw [← h1], h2, ha⟩
      · cases h
    · split at h
      · cases h
        exact .inr ⟨body, by rw [← h1], h2⟩
      · cases h
    · cases h
  · cases h

theorem plain_of_word {b : List Char} (h : b.all (fun c => c.isAlphanum || c == '_') = true) : plainText b = true := by
  unfold plainText
  rw [List.all_eq_true] at h ⊢
  intro c hc
  have := h c hc
  simp only [Bool.and_eq_true, bne_iff_ne, ne_eq]
  refine ⟨⟨⟨?_, ?_⟩, ?_⟩, ?_⟩ <;> (rintro rfl; exact absurd this (by decide))

/-- Only a string constant is a single string token. -/
theorem toks_str {b : List Char} {i : PyExpr Val} (h : toks N i = [.str b]) : ∃ s, i = .const (.str s) ∧ s.toList = b := by
  have last := congrArg List.getLast? h
  have first := congrArg List.head? h
  cases i <;> simp [toks] at last first
  case const l =>
    cases l <;> simp [litToks] at last first
    case int i => cases i <;> simp at first last
    case str s => exact ⟨s, rfl, first⟩
  case bin o a b => cases o <;> simp [toks] at first
  case comp k item value var iter hasCond cond sort =>
    cases sort <;> cases k <;> simp [sortToks] at first
  case display k items => cases k <;> simp [toks] at first
  case sub => rw [← List.cons_append, List.getLast?_concat] at last; cases last
  case call => rw [← List.cons_append, List.getLast?_concat] at last; cases last
  case pop => rw [← List.cons_append, List.getLast?_concat] at last; cases last

theorem match_quoted {b : List Char} (h : b.all (fun c => c.isAlphanum || c == '_') = true)
    (ha : b.head?.any Char.isAlpha = true) : matchAttr ('\'' :: (b ++ ['\''])) = some b := by
  have ht : (b ++ ['\'']).takeWhile (fun c => c.isAlphanum || c == '_') = b := by
    rw [List.takeWhile_append_of_pos (by simpa [List.all_eq_true] using h)]
    have : ['\''].takeWhile (fun c => c.isAlphanum || c == '_') = [] := by decide
    rw [this, List.append_nil]
  simp [matchAttr, ht, ha]

theorem repr_word (hp : ∀ c : Char, c.isAlphanum = true ∨ c = '_' → printable c = true) {b : List Char}
    (h : b.all (fun c => c.isAlphanum || c == '_') = true) : reprStr printable b = '\'' :: (b ++ ['\'']) := by
  have hq : quoteFor b = '\'' := by
    unfold quoteFor
    have : b.contains '\'' = false := by
      rw [List.contains_eq_any_beq, List.any_eq_false]
      intro c hc
      have := (List.all_eq_true.mp h) c hc
      simp only [beq_iff_eq]
      rintro rfl
      exact absurd this (by decide)
    rw [this]
    rfl
  unfold reprStr
  rw [hq]
  have hf : b.flatMap (reprChar printable '\'') = b := by
    clear hq
    induction b with
    | nil => rfl
    | cons c b ih =>
      simp only [List.all_cons, Bool.and_eq_true] at h
      rw [List.flatMap_cons, ih h.2]
      have hc := h.1
      have : reprChar printable '\'' c = [c] := by
        unfold reprChar
        rw [if_neg (by rintro rfl; exact absurd hc (by decide)), if_neg (by rintro rfl; exact absurd hc (by decide)),
          if_neg (by rintro rfl; exact absurd hc (by decide)), if_neg (by rintro rfl; exact absurd hc (by decide)),
          if_neg (by rintro rfl; exact absurd hc (by decide)), if_pos]
        apply hp
        simpa [Bool.or_eq_true] using hc
      rw [this]
      rfl
  simp only [hf]

theorem validAttr_iff (s : String) : validAttr s = true ↔
    s.toList.all (fun c => c.isAlphanum || c == '_') = true ∧ s.toList.head?.any Char.isAlpha = true := by
  unfold validAttr
  cases s.toList with
  | nil => simp
  | cons c cs =>
    simp only [Bool.and_eq_true, List.all_cons, List.head?_cons, Option.any_some, Char.isAlphanum]
    constructor
    · rintro ⟨h1, h2⟩
      exact ⟨⟨by simp [h1], h2⟩, h1⟩
    · rintro ⟨⟨_, h2⟩, h1⟩
      exact ⟨h1, h2⟩

/-- Only a string constant whose characters are those of an identifier has a text matching `valid_attr`; the part
between the quotes is the string itself. -/
theorem matchAttr_render (hN : PyNames printable N) (hp : ∀ c : Char, c.isAlphanum = true ∨ c = '_' → printable c = true)
    (i : PyExpr Val) (hi : wf N i = true) (b : List Char) :
    matchAttr (render N i).toList = some b ↔ ∃ s, i = .const (.str s) ∧ validAttr s = true ∧ b = s.toList := by
  constructor
  · intro h
    rcases matchAttr_some h with ⟨ht, h1, h2⟩ | ⟨b', ht, h1⟩
    · have hl := lex_render hN i hi
      rw [lex, ht] at hl
      have := lex_quoted b [] (plain_of_word h1)
      rw [this] at hl
      simp only [lexFrom, final, Option.map_some, Option.some.injEq] at hl
      obtain ⟨s, rfl, rfl⟩ := toks_str hl.symm
      exact ⟨s, rfl, (validAttr_iff s).mpr ⟨h1, h2⟩, rfl⟩
    · have hl := lex_render hN i hi
      rw [lex, ht] at hl
      have := lex_quoted b' ['\n'] (plain_of_word h1)
      rw [this] at hl
      cases hl
  · rintro ⟨s, rfl, hs, rfl⟩
    rw [validAttr_iff] at hs
    rw [render, hN.str, String.toList_ofList, repr_word hp hs.1]
    exact match_quoted hs.1 hs.2

/-- The text written by `wrap_path_item` is the one of the model (`wrapItem`), for every index code. -/
theorem C49_choice (hN : PyNames printable N) (hp : ∀ c : Char, c.isAlphanum = true ∨ c = '_' → printable c = true)
    (e i : PyExpr Val) (hi : wf N i = true) :
    wrapText (render N e) (render N i) = render N (wrapItem true e i) := by
  have hm := matchAttr_render hN hp i hi
  unfold wrapText
  cases h : matchAttr (render N i).toList with
  | some b =>
    obtain ⟨s, rfl, hs, rfl⟩ := (hm b).mp h
    simp [wrapItem, hs, render]
  | none =>
    have hn : ∀ s, i = .const (.str s) → validAttr s = false := by
      intro s hi
      cases hs : validAttr s with
      | false => rfl
      | true => rw [(hm s.toList).mpr ⟨s, hi, hs, rfl⟩] at h; cases h
    unfold wrapItem
    simp only [if_true]
    split
    · rename_i s
      rw [if_neg (by rw [hn s rfl]; exact Bool.false_ne_true)]
      rfl
    · rfl

example : wrapText "data_" "'a_1'" = "data_.a_1" := by decide +kernel
example : wrapText "data_" "'_a'" = "getattr(data_, '_a')" := by decide +kernel
example : wrapText "data_" "key_['a']" = "getattr(data_, key_['a'])" := by decide +kernel

/-- **C49**: whichever way the attribute of the name `s` is written, it is read as the attribute with that name, or
as a call of `getattr` with a string constant which is that name.  What is missing: a keyword (`C49_refuted_keyword`)
and attributes of number constants (`C48_refuted_number`). -/
theorem C49_text_partial (hN : PyNames printable N) (e : PyExpr Val) (he : wf N e = true) (s : String)
    (hs : validAttr s = true → isName s = true ∧ isInt e = false) :
    Parses (render N (wrapItem true e (.const (.str s)))) (.attr (tree N e) s) ∨
    Parses (render N (wrapItem true e (.const (.str s)))) (.call (.name "getattr") [tree N e, .str s.toList] []) := by
  unfold wrapItem
  simp only [if_true]
  split
  · rename_i h
    exact .inl (parses_render hN (.dot e s) (by simp [wf, he, (hs h).1, (hs h).2]))
  · exact .inr (parses_render hN (.getattr e (.const (.str s))) (by simp [wf, he]))

example : Parses (render demo (gen demo false (.lookup true .this [.naive (.str "a b")]) (.name "data_") [0]))
    (.call (.name "getattr") [.name "data_", .str "a b".toList] []) :=
  parses_of_parseText (n := 40) (by decide +kernel)

section
variable {U Err : Type}

/-- **C49** for running code: both ways ask the runtime for the attribute `s` of the object, nothing else. -/
theorem C49_value (R : Runtime Val U Err) (fuel : Nat) (e : PyExpr Val) (ρ : Env Val) (s : String) :
    eval R fuel (wrapItem true e (.const (.str s))) ρ =
      (do let x ← eval R fuel e ρ; runOp R .getattr [x, R.str s]) := by
  unfold wrapItem
  simp only [if_true]
  split
  · rw [eval]
  · rw [eval, eval]
    rfl

end

/-- Fails at every depth: a keyword behind a dot. -/
theorem no_parse {s : String} {ts : List Tok} (hl : lex s = some ts) (k : Nat)
    (h : ∀ n, parse (n + k) .expr ts = none) (a : Ast) : ¬ Parses s a := by
  rintro ⟨us, hl', n, hn⟩
  rw [hl] at hl'
  cases hl'
  have := hn (n + k) (by omega)
  rw [h] at this
  cases this

/-- The full statement of C49 is false: `c.attr("class")` and `c.attr("None")` are no expressions. -/
theorem C49_refuted_keyword : ∀ s ∈ ["class", "None"],
    ∀ a, ¬ Parses (render demo (gen demo false (.lookup true .this [.naive (.str s)]) (.name "data_") [0])) a := by
  intro s hs
  simp only [List.mem_cons, List.not_mem_nil, or_false] at hs
  rcases hs with rfl | rfl
  · refine no_parse (ts := [.name "data_", .dot, .kw "class"]) (by decide +kernel) 40 (fun n => ?_)
    rfl
  · refine no_parse (ts := [.name "data_", .dot, .name "None"]) (by decide +kernel) 40 (fun n => ?_)
    rfl

end

end Verif.Text
