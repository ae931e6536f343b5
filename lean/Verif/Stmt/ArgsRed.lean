import Verif.Stmt.InlineRedProps

/-!
# Stmt: reduces with additional arguments

`c.reduce(f, <expr>, additional_args=(…), initial=…, default=…)`, where `f` is a callable or an inline expression: the text
which is generated for it, how it is read, and what it does.

Source: `/repo/src/convtools/aggregations.py` lines 23-42, 116-176, 788-945, `/repo/src/convtools/base.py` 1357-1389,
1418-1464, 1676-1728, 1779-1785.
-/

set_option autoImplicit false

namespace Verif.Stmt

open Verif.Text Verif.Agg Verif.Reducers

variable {V E : Type}

/-! ## The text -/

/-- `",".join(…)` (base.py 1383, 1684). -/
def commas : List String → String
  | [] => ""
  | [s] => s
  | s :: t :: ss => s ++ "," ++ commas (t :: ss)

/-- What a reduce applies (aggregations.py 119-122, 844-847): a callable, whose name in the generated code is `g`, or an inline expression, which is read as
`tree` with names in the place of its arguments. -/
inductive Callee
  | function (g : String)
  | inline (code : String) (tree : Ast)

/-- What `call_with_params` (aggregations.py 23-42) makes of codes of arguments: for a callable (33-40) the text of `Call`
(base.py 1372-1383), for an inline expression (31-32) that of base.py 1437-1464.  Simplifications: no arguments by name, which
reduces do not use; where `str.format` raises there is no text in Python, which is excluded by `Callee.Ok`. -/
def Callee.text : Callee → List String → String
  | .function g, as => g ++ "(" ++ commas as ++ ")"
  | .inline code _, as => (Inline.inlineText code ⟨as, []⟩).getD ""

/-- How this text is read (nothing in the repository: the meaning of the text of aggregations.py 23-42). -/
def Callee.ast : Callee → List Ast → Ast
  | .function g, as => .call (.name g) as []
  | .inline _ tree, as => fillA (Inline.fillOf ⟨as.map (⟨"", [], ·, false⟩), []⟩) tree

/-- `Tuple` of codes (base.py 1676-1684, 1779-1785). -/
def tupleText (as : List String) : String := "(" ++ commas as ++ ",)"

/-- A `c.reduce(f, expr, additional_args=more, initial=…).filter(…)` (788-914), the result of the code generation for its
parts: their codes, how these are read, and what they give for the row.  Simplification: no `initial_from_first`. -/
structure ARed (V E : Type) where
  callee : Callee
  code : String
  more : List String
  initial : Option String
  cond : Option String
  xa : Ast
  moreA : List Ast
  ia : Option Ast
  condS : Option CondSrc
  x : V → Except E V
  moreX : List (V → Except E V)
  start : Option (V → Except E V)

/-- `_ReducerExpression.gen_reduce_initial` (123-154). -/
def ARed.initText (u : ARed V E) (var : String) : String :=
  var ++ " = " ++ (match u.initial with
    | none =>
      match u.more with
      | [] => u.code
      | m :: more => tupleText (u.code :: m :: more)
    | some i => u.callee.text (i :: u.code :: u.more))

/-- `_ReducerExpression.gen_reduce_two` (156-176). -/
def ARed.twoText (u : ARed V E) (var : String) : String := var ++ " = " ++ u.callee.text (var :: u.code :: u.more)

/-- `Reduce.gen_reduce_code_block` (876-914).  Simplification: the texts of the parts do not depend on the place where
they are generated. -/
def ARed.block (u : ARed V E) (var : String) (flag : Nat) : BlockText where
  var := var.toList
  init := (u.initText var).toList
  two := (u.twoText var).toList
  cond := u.cond.map String.toList
  flag := flag

/-- Such a reduce has `unconditional_init=False` (60, 800). -/
def ARed.text (u : ARed V E) : TRed := ⟨u.block, false⟩

/-- `code_hash` (643-648) of reduce number `i`. -/
def ARed.hash (m : Bool) (i : Nat) (u : ARed V E) : String := String.ofList (codeHash (textOf m i u.text))

/-! ## How it is read -/

/-- CodesOf and how they are read. -/
inductive CodesOf : List String → List (List Tok) → List Ast → Prop
  | nil : CodesOf [] [] []
  | cons {s : String} {ts : List Tok} {a : Ast} {ss : List String} {tss : List (List Tok)} {as : List Ast} :
      Code s.toList ts a → CodesOf ss tss as → CodesOf (s :: ss) (ts :: tss) (a :: as)

theorem CodesOf.rd : ∀ {ss : List String} {tss : List (List Tok)} {as : List Ast}, CodesOf ss tss as → AllRd tss as
  | _, _, _, .nil => .nil
  | _, _, _, .cons h hs => .cons h.rd hs.rd

theorem commas_lex {r : String} {rt : List Tok} (p : Piece r rt) (he : endLit r = true) (cs : List Char) :
    ∀ {ss : List String} {tss : List (List Tok)} {as : List Ast}, CodesOf ss tss as → ss ≠ [] →
      lexFrom .start ((commas ss).toList ++ (r.toList ++ cs)) = (lexFrom .start cs).map (sepBy [.comma] tss ++ rt ++ ·)
  | _, _, _, .nil, h => absurd rfl h
  | _, _, _, .cons h .nil, _ => h.lx.before _ p he cs
  | _, _, _, .cons (s := s) (ts := ts) h (.cons (s := t) (ss := ss) h' hs), _ => by
    have ih := commas_lex p he cs (.cons h' hs) (by simp)
    have e : (commas (s :: t :: ss)).toList ++ (r.toList ++ cs) =
        s.toList ++ (",".toList ++ ((commas (t :: ss)).toList ++ (r.toList ++ cs))) := by
      simp [commas, String.toList_append]
    rw [e, h.lx.before _ Pc.w_comma, ih]
    cases lexFrom .start cs <;> simp [sepBy]

theorem function_code {g : String} (hg : isName g = true) {ss : List String} {tss : List (List Tok)} {as : List Ast}
    (h : CodesOf ss tss as) (hne : ss ≠ []) :
    ∃ ts, Code ((Callee.function g).text ss).toList ts ((Callee.function g).ast as) := by
  refine ⟨_, ?_, (pr_call' (pr_name g) h.rd).rd⟩
  intro cs _ _
  have e : ((Callee.function g).text ss).toList ++ cs = g.toList ++ ("(".toList ++ ((commas ss).toList ++ (")".toList ++ cs))) := by
    simp [Callee.text, String.toList_append]
  have hn : Lx g.toList [.name g] := Lx.of_reads (reads_name hg true)
  rw [e, hn.before _ Pc.w_lpar, commas_lex Pc.w_rpar (by decide +kernel) cs h hne]
  cases lexFrom .start cs <;> simp

theorem Pc.w_close : Piece ",)" [.comma, .rpar] := by decide +kernel

theorem tuple_code {ss : List String} {tss : List (List Tok)} {as : List Ast} (h : CodesOf ss tss as) (hne : ss ≠ []) :
    ∃ ts, Code (tupleText ss).toList ts (.display .tuple as) := by
  cases h with
  | nil => exact absurd rfl hne
  | @cons s ts a ss tss as h hs =>
    refine ⟨_, ?_, (pr_tuple h.rd hs.rd (tl := [.comma]) (.inl rfl)).rd⟩
    intro cs _ _
    have e : (tupleText (s :: ss)).toList ++ cs = "(".toList ++ ((commas (s :: ss)).toList ++ (",)".toList ++ cs)) := by
      simp [tupleText, String.toList_append]
    rw [e, Pc.w_lpar.lex, commas_lex Pc.w_close (by decide +kernel) cs (.cons h hs) (by simp)]
    cases lexFrom .start cs <;> simp

/-- The format string can be filled with `n` arguments, and it is read as `tree`. -/
structure FormatsOk (n : Nat) (code : String) (tree : Ast) : Prop where
  filled : ∀ ss : List String, ss.length = n → ∃ s, Inline.inlineText code ⟨ss, []⟩ = some s
  reads : Inline.Template code ⟨List.replicate n Inline.bare, []⟩ tree

theorem get_list {α : Type} (as : List α) (k : List Char) :
    (⟨as, []⟩ : Inline.Args α).get k = if Inline.isNumber k then as[Inline.digits k]? else none := by
  unfold Inline.Args.get
  split <;> rfl

/-- All fields are numbers below `n`. -/
def fieldsBelow (n : Nat) (l : List Inline.TPart) : Bool :=
  l.all fun p =>
    match p with
    | .ch _ => true
    | .code k => Inline.isNumber k && decide (Inline.digits k < n)

theorem formats_ok {n : Nat} {code : String} {l : List Inline.TPart} {tree : Ast} (hp : Inline.parts code = some l)
    (hl : fieldsBelow n l = true) (ht : Inline.template 60 code ⟨List.replicate n Inline.bare, []⟩ = some tree) :
    FormatsOk n code tree where
  reads := Inline.template_sound ht
  filled := fun ss hs => by
    obtain ⟨t, ht⟩ := put_some (as := ⟨ss, []⟩) l (fun k hk => by
      have := List.all_eq_true.1 hl _ hk
      simp only [Bool.and_eq_true, decide_eq_true_eq] at this
      rw [get_list, if_pos this.1, List.getElem?_eq_getElem (by omega)]
      rfl)
    exact ⟨"(" ++ String.ofList t ++ ")", by simp [Inline.inlineText, hp, ht]⟩

/-- Operands with these codes. -/
def operands : List String → List (List Tok) → List Ast → List Inline.Operand
  | s :: ss, ts :: tss, a :: as => ⟨s, ts, a, false⟩ :: operands ss tss as
  | _, _, _ => []

theorem operands_ok : ∀ {ss : List String} {tss : List (List Tok)} {as : List Ast}, CodesOf ss tss as →
    (∀ o ∈ operands ss tss as, o.Ok) ∧ (operands ss tss as).map (·.code) = ss ∧ (operands ss tss as).map (·.tree) = as
  | _, _, _, .nil => by simp [operands]
  | _, _, _, .cons h hs => by
    obtain ⟨h1, h2, h3⟩ := operands_ok hs
    refine ⟨?_, by simp [operands, h2], by simp [operands, h3]⟩
    intro o ho
    simp only [operands, List.mem_cons] at ho
    rcases ho with rfl | ho
    · exact ⟨fun cs h1 h2 => h.lx cs h1 (h2 rfl), h.rd, fun h => by cases h⟩
    · exact h1 o ho

theorem inlines_code {code : String} {tree : Ast} {ss : List String} (h : FormatsOk ss.length code tree)
    {tss : List (List Tok)} {as : List Ast} (hs : CodesOf ss tss as) :
    ∃ ts, Code ((Callee.inline code tree).text ss).toList ts ((Callee.inline code tree).ast as) := by
  obtain ⟨o1, o2, o3⟩ := operands_ok hs
  obtain ⟨s, hf⟩ := h.filled ss rfl
  have hl : (operands ss tss as).length = ss.length := by rw [← List.length_map (f := (·.code)), o2]
  have hb : (⟨operands ss tss as, []⟩ : Inline.Args Inline.Operand).bare = ⟨List.replicate ss.length Inline.bare, []⟩ := by
    simp only [Inline.Args.bare, List.map_nil, List.map_const', hl]
  obtain ⟨ts, h1, h2⟩ := Inline.inline_reads (as := ⟨operands ss tss as, []⟩) (s := s) (code := code) (a := tree)
    (fun o ho => o1 o (by simpa [Inline.Args.all] using ho))
    (Inline.template_bare (hb ▸ h.reads)) (by simpa [Inline.Args.codes, o2] using hf)
  refine ⟨ts, ?_, ?_⟩
  · simp only [Callee.text, hf, Option.getD_some]
    exact Lx.of_reads h1
  · have e : fillA (Inline.fillOf ⟨operands ss tss as, []⟩) tree = (Callee.inline code tree).ast as := by
      refine fillA_trees (fun x => ?_) tree
      unfold Inline.fillOf
      split
      · simp only [get_list]
        split <;> [skip; rfl]
        generalize operands ss tss as = os at o3
        rw [← o3]
        simp only [List.map_map, List.getElem?_map, Option.map_map]
        rfl
      · rfl
    rw [← e]
    exact h2.rd

/-! ## Renaming the variable -/

/-- CodesOf and what they are after renaming. -/
inductive Renamed (old new : List Char) : List String → List String → Prop
  | nil : Renamed old new [] []
  | cons {s s' : String} {ss ss' : List String} : replaceAll old new s.toList = s'.toList → Renamed old new ss ss' →
      Renamed old new (s :: ss) (s' :: ss')

theorem Renamed.get {old new : List Char} : ∀ {ss ss' : List String}, Renamed old new ss ss' → ∀ (n : Nat) (s : String),
    ss[n]? = some s → ∃ s', ss'[n]? = some s' ∧ replaceAll old new s.toList = s'.toList
  | _, _, .nil, n, s, h => by simp at h
  | _, _, .cons h hs, 0, s, hn => by
    cases hn
    exact ⟨_, rfl, h⟩
  | _, _, .cons h hs, n + 1, s, hn => hs.get n s hn

/-- What is needed of a callee for `n` arguments: its text is read in this way, and renaming the variable in the text is
renaming it in the arguments. -/
structure Callee.Ok (c : Callee) (n : Nat) (old : List Char) : Prop where
  reads : ∀ {ss : List String} {tss : List (List Tok)} {as : List Ast}, ss.length = n → CodesOf ss tss as →
    ∃ ts, Code (c.text ss).toList ts (c.ast as)
  renamed : ∀ {new : List Char} {ss ss' : List String}, ss.length = n → Renamed old new ss ss' →
    replaceAll old new (c.text ss).toList = (c.text ss').toList

section
variable {old new : List Char} (ho : old ≠ []) (hs : ∀ c ∈ old, isSep c = false)
include ho hs

theorem commas_renamed {c : Char} (hc : isSep c = true) (r : List Char) : ∀ {ss ss' : List String}, Renamed old new ss ss' →
    replaceAll old new ((commas ss).toList ++ c :: r) = (commas ss').toList ++ c :: replaceAll old new r
  | _, _, .nil => by
    have := replace_sep (new := new) ho hs hc [] r
    rw [replaceAll_nil] at this
    simpa [commas] using this
  | _, _, .cons h .nil => by
    rw [commas, commas, replace_sep ho hs hc, h]
  | _, _, .cons (s := s) (s' := s') h (.cons (s := t) (s' := t') (ss := ss) (ss' := ss') h' ht) => by
    have ih := commas_renamed hc r (.cons h' ht)
    have e : ∀ (s t : String) (ss : List String) (r : List Char), (commas (s :: t :: ss)).toList ++ r =
        s.toList ++ ',' :: ((commas (t :: ss)).toList ++ r) := by
      intro s t ss r
      simp [commas, String.toList_append]
    rw [e, e, replace_sep ho hs (by decide), h, ih]

theorem tuple_renamed {ss ss' : List String} (h : Renamed old new ss ss') :
    replaceAll old new (tupleText ss).toList = (tupleText ss').toList := by
  have e : ∀ ss : List String, (tupleText ss).toList = [] ++ '(' :: ((commas ss).toList ++ ',' :: ([] ++ ')' :: [])) := by
    intro ss
    simp [tupleText, String.toList_append]
  rw [e, e, replace_sep ho hs (by decide), replaceAll_nil, commas_renamed ho hs (by decide) _ h, replace_sep ho hs (by decide),
    replaceAll_nil]

theorem function_ok {g : String} (hg : isName g = true) (hf : ¬ old <:+: g.toList) {n : Nat} (hn : n ≠ 0) :
    (Callee.function g).Ok n old where
  reads := fun h hc => function_code hg hc (fun h0 => hn (by rw [← h, h0]; rfl))
  renamed := fun _ hr => by
    have e : ∀ ss : List String, ((Callee.function g).text ss).toList = g.toList ++ '(' :: ((commas ss).toList ++ ')' :: []) := by
      intro ss
      simp [Callee.text, String.toList_append]
    rw [e, e, replace_sep ho hs (by decide), replaceAll_free hf, commas_renamed ho hs (by decide) _ hr, replaceAll_nil]

theorem inlines_ok {code : String} {tree : Ast} {n : Nat} (hf : FormatsOk n code tree) (hp : FieldsApart code old) :
    (Callee.inline code tree).Ok n old where
  reads := fun h hc => inlines_code (h ▸ hf) hc
  renamed := fun {new ss ss'} h hr => by
    obtain ⟨s, h1⟩ := hf.filled ss h
    obtain ⟨s', h2, h3⟩ := inlineText_renamed (as := ⟨ss, []⟩) (bs := ⟨ss', []⟩) (new := new) ho hs (by
      intro k x hx
      rw [get_list] at hx ⊢
      split at hx <;> [skip; cases hx]
      next hn =>
      rw [if_pos hn]
      exact hr.get _ _ hx) hp h1
    simp only [Callee.text, h1, h2, Option.getD_some, h3]

end

/-! ## The block -/

/-- The codes of the arguments besides the first. -/
def ARed.codes (u : ARed V E) : List String := u.code :: u.more

/-- Their trees. -/
def ARed.trees (u : ARed V E) : List Ast := u.xa :: u.moreA

/-- How the codes of a reduce are read. -/
structure ARed.Reads (u : ARed V E) : Prop where
  codes : ∃ tss, CodesOf u.codes tss u.trees
  initial : match u.initial, u.ia with
    | none, none => True
    | some i, some a => ∃ it, Code i.toList it a
    | _, _ => False
  cond : match u.cond, u.condS with
    | none, none => True
    | some s, some d => Lx s.toList d.toks ∧ Ex d.toks d.tree
    | _, _ => False

/-- The statement under `is _none` (how the text of 123-154 is read). -/
def ARed.initS (u : ARed V E) (va : Ast) : Stmt :=
  match u.ia with
  | none => .assign [va] (match u.moreA with
    | [] => u.xa
    | a :: as => .display .tuple (u.xa :: a :: as))
  | some i => .assign [va] (u.callee.ast (i :: u.trees))

/-- The other statement (how the text of 156-176 is read). -/
def ARed.twoS (u : ARed V E) (va : Ast) : Stmt := .assign [va] (u.callee.ast (va :: u.trees))

theorem args_block {u : ARed V E} {old : List Char} (hk : u.callee.Ok (u.more.length + 2) old) (h : u.Reads) (m : Bool)
    (j flag : Nat) : ∃ q, BlockReads (u.block (placeText m j) flag) q ∧ q.va = place m j ∧ q.flag = flag ∧ q.cond = u.condS ∧
      q.initS = [u.initS (place m j)] ∧ q.twoS = [u.twoS (place m j)] := by
  have hv := place_code m j
  obtain ⟨tss, hx⟩ := h.codes
  obtain ⟨as2, c2⟩ := hk.reads (ss := placeText m j :: u.codes) rfl (.cons ⟨hv.lx, hv.pr.rd⟩ hx)
  obtain ⟨ts2, t2⟩ := assign_part m j c2
  have t1 : ∃ ts, Part 0 (u.initText (placeText m j)).toList ts [u.initS (place m j)] := by
    have hi := h.initial
    simp only [ARed.initText, ARed.initS]
    cases h1 : u.initial with
    | none =>
      rw [h1] at hi
      cases h2 : u.ia with
      | some a => rw [h2] at hi; exact hi.elim
      | none =>
        simp only [ARed.codes, ARed.trees] at hx
        generalize u.more = ms at hx
        generalize u.moreA = as at hx
        cases hx with
        | cons h1 hs =>
          cases hs with
          | nil => exact assign_part m j h1
          | cons h2 hs =>
            obtain ⟨ts, c⟩ := tuple_code (.cons h1 (.cons h2 hs)) (by simp)
            exact assign_part m j c
    | some i =>
      rw [h1] at hi
      cases h2 : u.ia with
      | none => rw [h2] at hi; exact hi.elim
      | some a =>
        rw [h2] at hi
        obtain ⟨it, hi⟩ := hi
        obtain ⟨as1, c1⟩ := hk.reads (ss := i :: u.codes) rfl (.cons hi hx)
        exact assign_part m j c1
  obtain ⟨ts1, t1⟩ := t1
  refine ⟨⟨placeToks m j, place m j, ts1, _, ts2, _, u.condS, flag⟩, ⟨hv, t1, t2, rfl, ?_⟩, rfl, rfl, rfl, rfl, rfl⟩
  have := h.cond
  simp only [ARed.block]
  cases hc : u.cond <;> cases hd : u.condS <;> rw [hc, hd] at this <;> exact this

/-- The texts of the reduce do not contain the text of the variable. -/
structure ARed.Free (u : ARed V E) (var : String) : Prop where
  codes : ∀ c ∈ u.codes, ¬ var.toList <:+: c.toList
  initial : ∀ i, u.initial = some i → ¬ var.toList <:+: i.toList
  cond : ∀ c, u.cond = some c → ¬ var.toList <:+: c.toList

theorem renamed_free {old new : List Char} : ∀ {ss : List String}, (∀ s ∈ ss, ¬ old <:+: s.toList) → Renamed old new ss ss
  | [], _ => .nil
  | _ :: _, h => .cons (replaceAll_free (h _ List.mem_cons_self)) (renamed_free fun s hs => h s (List.mem_cons_of_mem _ hs))

theorem args_renamed {u : ARed V E} {m : Bool} {i : Nat} (hk : u.callee.Ok (u.more.length + 2) (placeText m i).toList)
    (h : u.Free (placeText m i)) (j flag : Nat) :
    renamed m i j (u.block (placeText m i) flag) = u.block (placeText m j) flag := by
  by_cases hij : placeText m i = placeText m j
  · rw [renamed, if_neg (by simpa using hij), ← hij]
  · rw [renamed, if_pos hij]
    have ho : (placeText m i).toList ≠ [] := by
      intro h0
      have := placeText_length m i
      rw [h0] at this
      simp at this
    have hs := placeText_sep m i
    have hv : replaceAll (placeText m i).toList (placeText m j).toList (placeText m i).toList = (placeText m j).toList := by
      have := replaceAll_hit (new := (placeText m j).toList) ho []
      simpa [replaceAll_nil] using this
    have hc : Renamed (placeText m i).toList (placeText m j).toList u.codes u.codes := renamed_free h.codes
    have h2 := hk.renamed (ss := placeText m i :: u.codes) rfl (.cons hv hc)
    have hx := replaceAll_free (new := (placeText m j).toList) (h.codes u.code (by simp [ARed.codes]))
    simp only [rename, ARed.block, ARed.initText, ARed.twoText, String.toList_append, List.append_assoc, replace_assign ho hs]
    simp only [ARed.codes] at h2
    rw [h2]
    congr 1
    cases hi : u.initial with
    | none =>
      simp only
      cases hm : u.more with
      | nil => simp only [hx]
      | cons c cs =>
        simp only [ARed.codes, hm] at hc
        simp only [tuple_renamed ho hs hc]
    | some t =>
      have h1 := hk.renamed (ss := t :: u.codes) rfl (.cons (replaceAll_free (h.initial t hi)) hc)
      simp only [ARed.codes] at h1
      simp only [h1]

/-! ## What it does -/

/-- The values of the arguments, from the left. -/
def evs (P : Py V E) (st : St V) : List Ast → Res E (List V)
  | [] => .ok []
  | a :: as =>
    match ev P a st with
    | .error e => .error e
    | .ok (.user v, _) => (evs P st as).map (v :: ·)
    | .ok _ => .error none

/-- The arguments give these values of the row. -/
inductive AllGive (P : Py V E) (args : List String) (env : String → Option (PVal V)) :
    List Ast → List (V → Except E V) → Prop
  | nil : AllGive P args env [] []
  | cons {a : Ast} {x : V → Except E V} {as : List Ast} {xs : List (V → Except E V)} : Gives P args env a x →
      AllGive P args env as xs → AllGive P args env (a :: as) (x :: xs)

theorem AllGive.evs {P : Py V E} {args : List String} {env : String → Option (PVal V)} {st : St V} {row : V}
    (hc : Ctx args env st) (hr : st.loc "row_" = some (.user row)) : ∀ {as : List Ast} {xs : List (V → Except E V)},
      AllGive P args env as xs → evs P st as = lift (mapAll (fun x => x row) xs)
  | _, _, .nil => rfl
  | _, _, .cons (x := x) (xs := xs) h hs => by
    have e := h st row hc hr
    simp only [Stmt.evs, mapAll, e, hs.evs hc hr]
    cases x row with
    | error e => rfl
    | ok v => cases mapAll (fun x => x row) xs <;> rfl

/-- What is applied to its arguments, the first one of `as` and the other ones `bs`, gives what `F` gives for their values
(`none` is the sentinel); exceptions of the arguments are raised. -/
structure Applies (P : Py V E) (args : List String) (env : String → Option (PVal V)) (c : Callee)
    (F : Option V → List V → Except E V) (as : Ast → Prop) (bs : List Ast) : Prop where
  value : ∀ st row a s vs, as a → Ctx args env st → st.loc "row_" = some (.user row) → ev P a st = .ok (pval s, st) →
    evs P st bs = .ok vs →
    ev P (c.ast (a :: bs)) st = (lift (F s vs)).map (fun w => (.user w, st))
  first : ∀ st row a e, as a → Ctx args env st → st.loc "row_" = some (.user row) → ev P a st = .error (some e) →
    ev P (c.ast (a :: bs)) st = .error (some e)
  rest : ∀ st row a s e, as a → Ctx args env st → st.loc "row_" = some (.user row) → ev P a st = .ok (pval s, st) →
    evs P st bs = .error (some e) →
    ev P (c.ast (a :: bs)) st = .error (some e)

/-- A tuple of these arguments. -/
structure Packs (P : Py V E) (args : List String) (env : String → Option (PVal V)) (pack : List V → V) (bs : List Ast) :
    Prop where
  value : ∀ st row vs, Ctx args env st → st.loc "row_" = some (.user row) → evs P st bs = .ok vs →
    ev P (.display .tuple bs) st = .ok (.user (pack vs), st)
  error : ∀ st row e, Ctx args env st → st.loc "row_" = some (.user row) → evs P st bs = .error (some e) →
    ev P (.display .tuple bs) st = .error (some e)

/-- The first arguments: the variable and `initial`. -/
def ARed.firsts (u : ARed V E) (m : Bool) (a : Ast) : Prop := (∃ j, a = place m j) ∨ u.ia = some a

/-- What is needed of reduce number `i`: its codes are read in this way, they mean what is said, and the name of its
variable does not occur in them. -/
structure AOk (P : Py V E) (condSem : String → V → Except E Bool) (args : List String) (env : String → Option (PVal V))
    (m : Bool) (pack : List V → V) (fns : Callee → Option V → List V → Except E V) (i : Nat) (u : ARed V E) : Prop where
  callee : u.callee.Ok (u.more.length + 2) (placeText m i).toList
  reads : u.Reads
  values : AllGive P args env u.trees (u.x :: u.moreX)
  initial : match u.ia, u.start with
    | none, none => True
    | some a, some s => Gives P args env a s
    | _, _ => False
  fn : Applies P args env u.callee (fns u.callee) (u.firsts m) u.trees
  tuple : u.ia = none → u.moreA ≠ [] → Packs P args env pack u.trees
  cond : ∀ c d, u.cond = some c → u.condS = some d → Tests P (Ctx args env) d.tree (condSem c)
  free : u.Free (placeText m i)

/-- The values of the row. -/
def ARed.vals (u : ARed V E) (row : V) : Except E (List V) := mapAll (fun x => x row) (u.x :: u.moreX)

/-- Reduce number `i` as the model of aggregations has it (aggregations.py 116-176, 788-914). -/
def ARed.red (pack : List V → V) (fns : Callee → Option V → List V → Except E V) (m : Bool) (i : Nat) (u : ARed V E) :
    Red V (DVal V) E where
  hash := u.hash m i
  cond := u.cond
  uncond := false
  init := fun row _ =>
    match u.start with
    | none =>
      match u.moreX with
      | [] => (u.x row).map (fun v => dval (some v))
      | _ => (u.vals row).map (fun vs => dval (some (pack vs)))
    | some s => andThen (s row) (fun a => andThen (u.vals row) (fun vs => (fns u.callee (some a) vs).map (fun w => dval (some w))))
  two := fun row r => andThen (u.vals row) (fun vs => (fns u.callee (undval r) vs).map (fun w => dval (some w)))

section
variable {P : Py V E} {condSem : String → V → Except E Bool} {args : List String} {env : String → Option (PVal V)}
  {m : Bool} {pack : List V → V} {fns : Callee → Option V → List V → Except E V} {i j : Nat} {u : ARed V E}

theorem args_ok (h : AOk P condSem args env m pack fns i u) :
    ∃ q, RedOk P condSem args env m UserVal j (if m then 1 <<< i else 0) (u.red pack fns m i)
      (renamed m i j (textOf m i u.text)) q := by
  have ht : textOf m i u.text = u.block (placeText m i) (if m then 1 <<< i else 0) := rfl
  rw [ht, args_renamed h.callee h.free]
  obtain ⟨q, h1, h2, h3, h4, h5, h6⟩ := args_block h.callee h.reads m j (if m then 1 <<< i else 0)
  have hev : ∀ st row, Ctx args env st → st.loc "row_" = some (.user row) → evs P st u.trees = lift (u.vals row) :=
    fun st row hc hr => h.values.evs hc hr
  refine ⟨q, h1, h2, h3, ?_, ?_, ?_, ?_⟩
  · rw [h5]
    have hi := h.initial
    simp only [ARed.initS, ARed.red]
    cases hia : u.ia with
    | none =>
      rw [hia] at hi
      cases hst : u.start with
      | some s => rw [hst] at hi; exact hi.elim
      | none =>
        have hvals := h.values
        have htup := h.tuple hia
        simp only [ARed.trees] at hvals htup hev
        cases hma : u.moreA with
        | nil =>
          rw [hma] at hvals
          cases hmx : u.moreX with
          | cons x xs =>
            rw [hmx] at hvals
            cases hvals with
            | cons _ hs => cases hs
          | nil =>
            rw [hmx] at hvals
            cases hvals with
            | cons hx _ =>
              refine acts_assign (y := fun row _ => u.x row) (fun _ _ => rfl) ?_
              intro st row s hc hr _
              exact hx st row hc hr
        | cons a as =>
          rw [hma] at hvals htup hev
          cases hmx : u.moreX with
          | nil =>
            rw [hmx] at hvals
            cases hvals with
            | cons _ hs => cases hs
          | cons x xs =>
            refine acts_assign (y := fun row _ => (u.vals row).map pack) ?_ ?_
            · intro row s
              simp only
              cases u.vals row <;> rfl
            · intro st row s hc hr _
              have e := hev st row hc hr
              cases hv : u.vals row with
              | error x =>
                rw [hv] at e
                exact (htup (by simp)).error st row x hc hr e
              | ok vs =>
                rw [hv] at e
                exact (htup (by simp)).value st row vs hc hr e
    | some a =>
      rw [hia] at hi
      cases hst : u.start with
      | none => rw [hst] at hi; exact hi.elim
      | some f =>
        rw [hst] at hi
        refine acts_assign (y := fun row _ => andThen (f row) (fun a => andThen (u.vals row) (fun vs =>
          fns u.callee (some a) vs))) ?_ ?_
        · intro row s
          simp only [andThen]
          cases f row <;> [rfl; (cases u.vals row <;> rfl)]
        · intro st row s hc hr _
          have e1 := hi st row hc hr
          have e2 := hev st row hc hr
          cases hfr : f row with
          | error e =>
            rw [hfr] at e1
            exact h.fn.first st row a e (.inr hia) hc hr e1
          | ok w =>
            rw [hfr] at e1
            cases hxr : u.vals row with
            | error e =>
              rw [hxr] at e2
              exact h.fn.rest st row a (some w) e (.inr hia) hc hr e1 e2
            | ok vs =>
              rw [hxr] at e2
              exact h.fn.value st row a (some w) vs (.inr hia) hc hr e1 e2
  · rw [h6]
    refine acts_assign (y := fun row s => andThen (u.vals row) (fun vs => fns u.callee s vs)) ?_ ?_
    · intro row s
      simp only [ARed.red, undval_dval, andThen]
      cases u.vals row <;> rfl
    · intro st row s hc hr hh
      have e2 := hev st row hc hr
      cases hxr : u.vals row with
      | error e =>
        rw [hxr] at e2
        exact h.fn.rest st row _ s e (.inl ⟨j, rfl⟩) hc hr hh.ev e2
      | ok vs =>
        rw [hxr] at e2
        exact h.fn.value st row _ s vs (.inl ⟨j, rfl⟩) hc hr hh.ev e2
  · simp only [ARed.red, ARed.block]
    cases u.cond with
    | none => rfl
    | some c => simp
  · intro c d hc hd
    rw [h4] at hd
    simp only [ARed.block] at hc
    cases hcc : u.cond with
    | none => rw [hcc] at hc; cases hc
    | some c' =>
      rw [hcc, Option.map_some, Option.some.injEq] at hc
      subst hc
      rw [String.ofList_toList]
      exact h.cond _ _ hcc hd

end

/-- The reduces number `i` and the following ones (aggregations.py 1169-1199). -/
def argsFrom (pack : List V → V) (fns : Callee → Option V → List V → Except E V) (m : Bool) :
    Nat → List (ARed V E) → List (Red V (DVal V) E)
  | _, [] => []
  | i, u :: us => u.red pack fns m i :: argsFrom pack fns m (i + 1) us

theorem linked_args {P : Py V E} {condSem : String → V → Except E Bool} {args : List String}
    {env : String → Option (PVal V)} {m : Bool} {pack : List V → V} {fns : Callee → Option V → List V → Except E V} :
    ∀ {us : List (ARed V E)} {i : Nat}, (∀ n u, us[n]? = some u → AOk P condSem args env m pack fns (i + n) u) →
      Linked P condSem args env m (fun _ => UserVal) i (us.map ARed.text) (argsFrom pack fns m i us)
  | [], _, _ => .nil
  | u :: us, i, h => by
    refine .cons rfl rfl (fun j _ => args_ok (h 0 u rfl)) (linked_args (fun n v hv => ?_))
    have := h (n + 1) v (by simpa using hv)
    rwa [Nat.add_assoc, Nat.add_comm 1 n]

theorem argsFrom_get (pack : List V → V) (fns : Callee → Option V → List V → Except E V) (m : Bool) :
    ∀ (us : List (ARed V E)) (i n : Nat), (argsFrom pack fns m i us)[n]? = us[n]?.map (ARed.red pack fns m (i + n))
  | [], _, _ => by simp [argsFrom]
  | u :: us, i, 0 => rfl
  | u :: us, i, n + 1 => by
    rw [argsFrom, List.getElem?_cons_succ, List.getElem?_cons_succ, argsFrom_get pack fns m us (i + 1) n,
      Nat.add_assoc, Nat.add_comm 1 n]

theorem argsFrom_length (pack : List V → V) (fns : Callee → Option V → List V → Except E V) (m : Bool) :
    ∀ (us : List (ARed V E)) (i : Nat), (argsFrom pack fns m i us).length = us.length
  | [], _ => rfl
  | _ :: us, i => by simp [argsFrom, argsFrom_length pack fns m us (i + 1)]

example : commas ["a", "b", "c"] = "a,b,c" := by decide +kernel
example : tupleText ["a", "b"] = "(a,b,)" := by decide +kernel
example : (Callee.function "f_1").text ["a", "b", "c"] = "f_1(a,b,c)" := by decide +kernel
example : (Callee.inline "{0} + {1} * {2}" (.num 0)).text ["a", "b", "c"] = "(a + b * c)" := by decide +kernel

/-- Without additional arguments it is the text of C67. -/
example : (⟨.function "f_1", "row_[0]", [], some "0", none, .num 0, [], none, none, fun r => .ok r, [], none⟩ : ARed Nat Unit).twoText
    "v" = (⟨"f_1", "row_[0]", some "0", none, .num 0, none, none, fun r => .ok r, none⟩ : CRed Nat Unit).twoText "v" := by
  decide +kernel

end Verif.Stmt
