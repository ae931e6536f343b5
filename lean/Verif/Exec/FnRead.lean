import Verif.Stmt.AggFn
import Verif.Exec.Spec
import Verif.Text.Props

/-!
# Exec: how Python reads the generated functions

The texts of `Verif/Exec/Texts.lean`, read with the layout and the grammar of `Verif/Stmt`, are the definitions which
are meant.
-/

set_option autoImplicit false

namespace Verif.Exec

open Verif.Expr Verif.Text
open Verif.Stmt (Tree Has HasAll Lx Code Ex Seg SimpleToks StmtsOf OkAll flatAll argToks codeArgs Source)

section
variable {Val : Type} {N : Names Val} {printable : Char → Bool}

/-! ## Statements are not indented -/

/-- No text of a constant or name begins with a space. -/
theorem const_space (hN : PyNames printable N) (l : Lit Val) (cs : List Char) :
    ((N.const l).toList ++ cs).head? ≠ some ' ' ∧ (N.const l).toList ≠ [] := by
  have hname : ∀ s : String, isNameTok s = true → ∀ cs, (s.toList ++ cs).head? ≠ some ' ' ∧ s.toList ≠ [] := by
    intro s h cs
    simp only [isNameTok, Bool.and_eq_true] at h
    cases hs : s.toList with
    | nil => rw [hs] at h; simp [isWordText] at h
    | cons c t =>
      rw [hs] at h
      simp only [isWordText, Bool.and_eq_true] at h
      refine ⟨?_, by simp⟩
      simp only [List.cons_append, List.head?_cons, ne_eq, Option.some.injEq]
      rintro rfl
      exact absurd h.1.1 (by decide)
  have hdig : ∀ n (cs : List Char), (Nat.toDigits 10 n ++ cs).head? ≠ some ' ' ∧ Nat.toDigits 10 n ≠ [] := by
    intro n cs
    have hd : ∀ c ∈ Nat.toDigits 10 n, c.isDigit = true := fun c hc =>
      Nat.isDigit_of_mem_toDigits (by decide) (by decide) hc
    cases hs : Nat.toDigits 10 n with
    | nil => exact absurd hs Nat.toDigits_ne_nil
    | cons c s =>
      rw [hs] at hd
      refine ⟨?_, by simp⟩
      simp only [List.cons_append, List.head?_cons, ne_eq, Option.some.injEq]
      rintro rfl
      exact absurd (hd ' ' (by simp)) (by decide)
  cases l with
  | none => rw [hN.none]; exact hname _ rfl _
  | bool b => rw [hN.bool]; cases b <;> exact hname _ rfl _
  | int i =>
    rw [hN.int, String.toList_ofList]
    cases i with
    | ofNat n => exact hdig n cs
    | negSucc n => simp [reprInt]
  | str s =>
    rw [hN.str, String.toList_ofList]
    rcases quoteFor_quote s.toList with h | h <;> simp [Text.reprStr, h]
  | obj v => exact hname _ (isNameTok_of (hN.obj v)) _

theorem name_space {s : String} (h : isName s = true) (cs : List Char) : (s.toList ++ cs).head? ≠ some ' ' := by
  have h := isNameTok_of h
  simp only [isNameTok, Bool.and_eq_true] at h
  cases hs : s.toList with
  | nil => rw [hs] at h; simp [isWordText] at h
  | cons c t =>
    rw [hs] at h
    simp only [isWordText, Bool.and_eq_true] at h
    simp only [List.cons_append, List.head?_cons, ne_eq, Option.some.injEq]
    rintro rfl
    exact absurd h.1.1 (by decide)

mutual

/-- No generated text begins with a space. -/
theorem space_of (hN : PyNames printable N) : ∀ (e : PyExpr Val), wf N e = true → ∀ cs,
    ((render N e).toList ++ cs).head? ≠ some ' '
  | .name n, h, cs => by simp only [wf] at h; exact name_space h cs
  | .const l, _, cs => (const_space hN l cs).1
  | .getLabel l, _, cs => by simp [render]
  | .addLabel l e, _, cs => by simp [render]
  | .attach a b, _, cs => by simp [render]
  | .sub e i, h, cs => by
    simp only [wf, Bool.and_eq_true] at h
    simp only [render, String.toList_append, List.append_assoc]
    exact space_of hN e h.1.2 _
  | .dot e a, h, cs => by
    simp only [wf, Bool.and_eq_true] at h
    simp only [render, String.toList_append, List.append_assoc]
    exact space_of hN e h.2 _
  | .getattr e i, _, cs => by simp [render]
  | .call f args kw, h, cs => by
    simp only [wf, Bool.and_eq_true] at h
    simp only [render, String.toList_append, List.append_assoc]
    exact space_of hN f h.1.2 _
  | .boolop isAnd es, _, cs => by simp [render]
  | .eqs es, _, cs => by simp [render]
  | .not e, _, cs => by simp [render]
  | .bin o a b, _, cs => by cases o <;> simp [render]
  | .neg e, _, cs => by simp [render]
  | .ifexp t c f, _, cs => by simp [render]
  | .comp k item value var iter hasCond cond sort, _, cs => by
    cases sort with
    | none => cases k <;> simp [render, sortText]
    | some p => cases k <;> simp [render, sortText]
  | .display k items, _, cs => by cases k <;> simp [render]
  | .getOrDefault fname _ selfGiven self obj dflt, h, cs => by
    simp only [wf, Bool.and_eq_true] at h
    simp only [render, String.toList_append, List.append_assoc]
    exact name_space h.1.1.1.1 _
  | .optItems k fname _ _ obj args, _, cs => by cases k <;> simp [render]
  | .optDict fname _ _ obj args, _, cs => by simp [render]
  | .tap fname obj _ args, h, cs => by
    simp only [wf, Bool.and_eq_true] at h
    simp only [render, String.toList_append, List.append_assoc]
    exact name_space h.1.1 _
  | .setattr o k v, _, cs => by simp [render]
  | .pop o k, h, cs => by
    simp only [wf, Bool.and_eq_true] at h
    simp only [render, String.toList_append, List.append_assoc]
    exact space_of hN o h.1.2 _
  | .delattr o k, _, cs => by simp [render]
  | .setitem _ _ _, h, _ => by simp [wf] at h
  | .bad _, h, _ => by simp [wf] at h
  | .given _ _, h, _ => by simp [wf] at h

end


/-! ## Lines and statements -/

theorem code_of (hN : PyNames printable N) {e : PyExpr Val} (h : wf N e = true) :
    Code (render N e).toList (toks N e) (tree N e) :=
  ⟨.of_reads (reads_of hN e h), rd_of_pr (pr_of e h)⟩

theorem _root_.Verif.Stmt.Code.ex {s : List Char} {ts : List Tok} {a : Ast} (h : Code s ts a) : Ex ts a := .of_rd h.rd

/-- A header line `def …:`. -/
theorem has_def {name params : List Char} {ts : List Tok} {cs : List Char}
    (hcs : cs = "def ".toList ++ name ++ params)
    (h : lexFrom .start (name ++ params) = some ts) : Has cs [(0, .kw "def" :: ts)] := by
  subst hcs
  have hp : Piece "def " [.kw "def"] := by decide +kernel
  have h1 : lexFrom .start ("def ".toList ++ (name ++ params)) = some (.kw "def" :: ts) := by rw [hp.lex, h]; rfl
  rw [List.append_assoc]
  exact Has.line 0 (c := 'd') (by decide) h1

/-- The text of one function is read as its definition. -/
theorem defines_of {s : List Char} {name : String} {pt : List Tok} {ps ks : List String} {ts : List Tree}
    {b : List Stmt.Stmt} (h : Has s (flatAll 0 [.block (.kw "def" :: .name name :: .lpar :: pt) ts])) (hok : OkAll ts)
    (hne : ts ≠ []) (hp : Stmt.readParams pt = some (ps, ks)) (hd : (ps ++ ks).Nodup) (hs : StmtsOf ts b) :
    Defines s name ⟨ps, ks, b⟩ :=
  Stmt.source_of h ⟨⟨hne, hok⟩, trivial⟩ (.def_ hp hd hs .nil)

/-- An expression statement which is a negative number. -/
theorem simple_neg {ts : List Tok} {a : Ast} (h : Ex (.minus :: ts) a) : SimpleToks (.minus :: ts) (.expr a) := by
  obtain ⟨n, hn⟩ := h.toks
  refine ⟨n + 1, fun m hm => ?_⟩
  rw [Stmt.readSimple_noKw rfl]
  have hp : parse m .primary (.minus :: ts) = none := by
    obtain ⟨k, rfl⟩ : ∃ k, m = k + 1 := ⟨m - 1, by omega⟩
    rfl
  simp only [hp, hn m (by omega), Option.map_some]

/-- An expression statement. -/
theorem simple_of {e : PyExpr Val} (h : wf N e = true) : SimpleToks (toks N e) (.expr (tree N e)) := by
  cases hn : isNeg e with
  | false => exact Stmt.simple_expr (pr_of e h hn)
  | true =>
    have hx : Ex (toks N e) (tree N e) := .of_rd (rd_of_pr (pr_of e h))
    cases e with
    | const l =>
      cases l with
      | int i =>
        cases i with
        | ofNat n => cases hn
        | negSucc n => exact simple_neg hx
      | _ => cases hn
    | _ => cases hn

/-- A text is the source of one list of statements. -/
theorem source_unique {s : List Char} {b b' : List Stmt.Stmt} (h : Source s b) (h' : Source s b') : b = b' := by
  obtain ⟨ts, h1, n, hn⟩ := h
  obtain ⟨ts', h2, m, hm⟩ := h'
  rw [h1] at h2
  cases h2
  have e1 := hn (n + m) (by omega)
  have e2 := hm (n + m) (by omega)
  rw [e1] at e2
  exact Option.some.inj e2

theorem defines_unique {s : List Char} {name : String} {d d' : Def} (h : Defines s name d) (h' : Defines s name d') :
    d = d' := by
  have := source_unique h h'
  cases d
  cases d'
  simp only [List.cons.injEq, Stmt.Stmt.def_.injEq] at this
  simp [this]

/-- A line which ends with a colon. -/
theorem has_colon {spaced pre : String} (k : Nat) {s : List Char} {tp ts : List Tok}
    (hs : spaced.toList = List.replicate k ' ' ++ pre.toList) (hp : Piece pre tp)
    (hc : pre.toList.head? ≠ some ' ') (hne : pre ≠ "") (h : Lx s ts) :
    Has (spaced.toList ++ s ++ ":".toList) [(k, tp ++ (ts ++ [.colon]))] := by
  rw [List.append_assoc]
  exact Has.lineOf k hs hp hc hne (h.then ":" (by decide +kernel))

/-! ## `optional_items_generator` -/

/-- The lines of items, as statements. -/
inductive Items : List (Option String × String) → List Tree → List Stmt.Stmt → Prop
  | nil : Items [] [] []
  | plain {e : String} {et : List Tok} {ea : Ast} {ls : List (Option String × String)} {ts : List Tree}
      {b : List Stmt.Stmt} : Code e.toList et ea → Items ls ts b →
      Items ((none, e) :: ls) (.leaf (.kw "yield" :: et) :: ts) (.yield_ ea :: b)
  | cond {c e : String} {ct et : List Tok} {ca ea : Ast} {ls : List (Option String × String)} {ts : List Tree}
      {b : List Stmt.Stmt} : Code c.toList ct ca → Code e.toList et ea → Items ls ts b →
      Items ((some c, e) :: ls) (.block (.if_ :: ct) [.leaf (.kw "yield" :: et)] :: ts) (.ite ca [.yield_ ea] [] :: b)

theorem Items.ok {ls : List (Option String × String)} {ts : List Tree} {b : List Stmt.Stmt} (h : Items ls ts b) :
    OkAll ts ∧ Seg ts b ∧ Stmt.noElse ts = true := by
  induction h with
  | nil => exact ⟨trivial, .nil, rfl⟩
  | plain h _ ih =>
    exact ⟨⟨h.ex.okAfter [.kw "yield"], ih.1⟩, (Seg.leaf (Stmt.simple_yield h.ex)).append ih.2.1 ih.2.2, rfl⟩
  | cond hc h _ ih =>
    exact ⟨⟨⟨by simp, h.ex.okAfter [.kw "yield"], trivial⟩, ih.1⟩,
      (Seg.ite hc.ex (.leaf (Stmt.simple_yield h.ex) .nil)).append ih.2.1 ih.2.2, rfl⟩

theorem item_plain {e : String} {et : List Tok} {ea : Ast} (h : Code e.toList et ea) :
    HasAll (itemText (none, e)) [(4, .kw "yield" :: et)] :=
  .one (Has.lineOf (spaced := "    yield ") (pre := "yield ") 4 (tp := [.kw "yield"]) rfl (by decide +kernel)
    (by decide) (by decide) h.lx.whole)

theorem item_cond {c e : String} {ct et : List Tok} {ca ea : Ast} (hc : Code c.toList ct ca)
    (h : Code e.toList et ea) :
    HasAll (itemText (some c, e)) [(4, .if_ :: (ct ++ [.colon])), (8, .kw "yield" :: et)] :=
  .cons (has_colon (spaced := "    if ") (pre := "if ") 4 (tp := [.if_]) rfl (by decide +kernel) (by decide)
    (by decide) hc.lx)
    (.one (Has.lineOf (spaced := "        yield ") (pre := "yield ") 8 (tp := [.kw "yield"]) rfl (by decide +kernel)
      (by decide) (by decide) h.lx.whole))

theorem Items.has {ls : List (Option String × String)} {ts : List Tree} {b : List Stmt.Stmt} (h : Items ls ts b)
    (hne : ls ≠ []) : HasAll (ls.flatMap itemText) (flatAll 4 ts) := by
  induction h with
  | nil => exact absurd rfl hne
  | @plain e et ea ls ts b h h' ih =>
    cases ls with
    | nil =>
      cases h'
      simpa [flatAll, Tree.flat] using item_plain h
    | cons l ls =>
      have := (item_plain h).append (ih (by simp))
      simpa only [flatAll, Tree.flat, List.flatMap_cons] using this
  | @cond c e ct et ca ea ls ts b hc h h' ih =>
    cases ls with
    | nil =>
      cases h'
      simpa [flatAll, Tree.flat] using item_cond hc h
    | cons l ls =>
      have := (item_cond hc h).append (ih (by simp))
      simpa only [flatAll, Tree.flat, List.flatMap_cons, List.cons_append, List.nil_append, List.append_assoc] using this

theorem Items.ne {ls : List (Option String × String)} {ts : List Tree} {b : List Stmt.Stmt} (h : Items ls ts b)
    (hne : ls ≠ []) : ts ≠ [] := by
  cases h <;> simp at hne ⊢

/-- A function whose first line is `def NAME(data_ARGS):`. -/
theorem has_head {name : String} {args : List String} (hn : isName name = true) (ha : args.all isName = true) :
    Has ("def ".toList ++ name.toList ++ "(data_".toList ++ codeArgs args ++ "):".toList)
      [(0, (.kw "def" :: .name name :: .lpar :: .name "data_" :: (argToks args ++ [.rpar])) ++ [.colon])] := by
  have := has_def (name := name.toList) (params := "(data_".toList ++ (codeArgs args ++ "):".toList))
    (cs := "def ".toList ++ name.toList ++ "(data_".toList ++ codeArgs args ++ "):".toList)
    (by simp only [List.append_assoc]) (Stmt.lex_def hn ha)
  simpa using this

theorem defines_items {name : String} {args : List String} {ls : List (Option String × String)} {ts : List Tree}
    {b : List Stmt.Stmt} (hn : isName name = true) (ha : args.all isName = true) (hd : ("data_" :: args).Nodup)
    (h : Items ls ts b) (hne : ls ≠ []) : Defines (itemsText name args ls) name ⟨"data_" :: args, [], b⟩ := by
  refine defines_of ?_ h.ok.1 (h.ne hne) (Stmt.readParams_args "data_" args) (by simpa using hd) h.ok.2.1.stmts
  have hb : Has "        ".toList [] := Has.blank 8
  have := (HasAll.cons .nil (.cons (has_head hn ha) (.cons (h.has hne).join (.one hb)))).join
  simpa [itemsText, flatAll, Tree.flat] using this

theorem items_of (hN : PyNames printable N) : ∀ (flags : List Bool) (es : List (PyExpr Val)), wfAll N es = true →
    ∃ ts, Items (itemTexts N flags es) ts (itemStmts flags (treeAll N es))
  | [], _, _ => by simp only [itemTexts, itemStmts]; exact ⟨_, .nil⟩
  | _ :: _, [], _ => by simp only [itemTexts, treeAll, itemStmts]; exact ⟨_, .nil⟩
  | _ :: _, [_], _ => by simp only [itemTexts, treeAll, itemStmts]; exact ⟨_, .nil⟩
  | flag :: flags, c :: e :: es, h => by
    simp only [wfAll, Bool.and_eq_true] at h
    simp only [itemTexts, treeAll, itemStmts]
    obtain ⟨ts, ih⟩ := items_of hN flags es h.2.2
    cases flag with
    | true => exact ⟨_, .cond (code_of hN h.1) (code_of hN h.2.1) ih⟩
    | false => exact ⟨_, .plain (code_of hN h.2.1) ih⟩

theorem pairs_of (hN : PyNames printable N) : ∀ (flags : List Bool) (es : List (PyExpr Val)), wfAll N es = true →
    ∃ ts, Items (pairTexts N flags es) ts (pairStmts flags (treeAll N es))
  | [], _, _ => by simp only [pairTexts, pairStmts]; exact ⟨_, .nil⟩
  | _ :: _, [], _ => by simp only [pairTexts, treeAll, pairStmts]; exact ⟨_, .nil⟩
  | _ :: _, [_], _ => by simp only [pairTexts, treeAll, pairStmts]; exact ⟨_, .nil⟩
  | _ :: _, [_, _], _ => by simp only [pairTexts, treeAll, pairStmts]; exact ⟨_, .nil⟩
  | flag :: flags, c :: k :: e :: es, h => by
    simp only [wfAll, Bool.and_eq_true] at h
    simp only [pairTexts, treeAll, pairStmts]
    have hp : Code (render N (.display .tuple [k, e])).toList (toks N (.display .tuple [k, e]))
        (.display .tuple [tree N k, tree N e]) := by
      have := code_of hN (e := .display .tuple [k, e]) (by simp [wf, wfAll, h.2.1, h.2.2.1])
      simpa only [tree, treeAll] using this
    obtain ⟨ts, ih⟩ := pairs_of hN flags es h.2.2.2
    cases flag with
    | true => exact ⟨_, .cond (code_of hN h.1) hp ih⟩
    | false => exact ⟨_, .plain hp ih⟩

theorem itemTexts_ne {flags : List Bool} {es : List (PyExpr Val)} (h : flags ≠ []) (hs : 2 ≤ es.length) :
    itemTexts N flags es ≠ [] := by
  match flags, es, h, hs with
  | _ :: _, _ :: _ :: _, _, _ => simp [itemTexts]

theorem pairTexts_ne {flags : List Bool} {es : List (PyExpr Val)} (h : flags ≠ []) (hs : 3 ≤ es.length) :
    pairTexts N flags es ≠ [] := by
  match flags, es, h, hs with
  | _ :: _, _ :: _ :: _ :: _, _, _ => simp [pairTexts]

/-! ## `tap` -/

/-- The lines of statements of `tap`. -/
inductive Lines : List String → List Tree → List Stmt.Stmt → Prop
  | nil : Lines [] [] []
  | cons {s : String} {st : List Tok} {x : Stmt.Stmt} {ss : List String} {ts : List Tree} {b : List Stmt.Stmt} :
      lexFrom .start s.toList = some st → s.toList.head? ≠ some ' ' → s.toList ≠ [] → (Tree.leaf st).Ok →
      SimpleToks st x → Lines ss ts b → Lines (s :: ss) (.leaf st :: ts) (x :: b)

theorem Lines.ok {ss : List String} {ts : List Tree} {b : List Stmt.Stmt} (h : Lines ss ts b) :
    OkAll ts ∧ Seg ts b ∧ Stmt.noElse ts = true := by
  induction h with
  | nil => exact ⟨trivial, .nil, rfl⟩
  | cons _ _ _ hok h _ ih => exact ⟨⟨hok, ih.1⟩, (Seg.leaf h).append ih.2.1 ih.2.2, rfl⟩

theorem line_indent {s : String} {st : List Tok} (h : lexFrom .start s.toList = some st)
    (hc : s.toList.head? ≠ some ' ') (hne : s.toList ≠ []) :
    Has (Agg.indent 1 s.toList) (flatAll 4 [Tree.leaf st]) := by
  have h1 : Has s.toList (flatAll 0 [Tree.leaf st]) := by
    have := Stmt.Has.lineAny (spaced := "") 0 rfl hc hne h
    simpa [flatAll, Tree.flat] using this
  exact h1.indentAll 1

theorem Lines.has {ss : List String} {ts : List Tree} {b : List Stmt.Stmt} (h : Lines ss ts b) :
    Has (Agg.joinLines (ss.map (fun s => Agg.indent 1 s.toList))) (flatAll 4 ts) := by
  induction h with
  | nil => exact .nil
  | @cons s st x ss ts b h1 h2 h3 _ _ h' ih =>
    have hl := line_indent h1 h2 h3
    cases ss with
    | nil =>
      cases h'
      exact hl
    | cons s' ss =>
      have := hl.append ih
      simpa [flatAll, Tree.flat, Agg.joinLines] using this

theorem defines_tap {name : String} {args : List String} {ss : List String} {ts : List Tree}
    {b : List Stmt.Stmt} (hn : isName name = true) (ha : args.all isName = true) (hd : ("data_" :: args).Nodup)
    (h : Lines ss ts b) :
    Defines (tapText name args ss) name ⟨"data_" :: args, [], b ++ [.ret (.name "data_")]⟩ := by
  have hret : SimpleToks [.kw "return", .name "data_"] (.ret (.name "data_")) :=
    Stmt.simple_ret (Ex.of_rd (pr_name "data_").rd)
  refine defines_of (ts := ts ++ [.leaf [.kw "return", .name "data_"]]) ?_
    (Stmt.okAll_append h.ok.1 ⟨by simp [Tree.Ok], trivial⟩) (by simp)
    (Stmt.readParams_args "data_" args) (by simpa using hd) (h.ok.2.1.append (Seg.leaf hret) rfl).stmts
  have hr := Has.fixed (spaced := "    return data_") (pre := "return data_") 4
    (ts := [.kw "return", .name "data_"]) rfl (by decide +kernel) (by decide) (by decide)
  have := (HasAll.cons .nil (.cons (has_head hn ha) (.cons h.has (.cons hr (.one .nil))))).join
  simpa [tapText, flatAll, Tree.flat, Stmt.flatAll_append] using this

theorem wfStmt_expr {e : PyExpr Val} (hs : ∀ o k v, e ≠ .setitem o k v) : wfStmt N e = wf N e := by
  cases e <;> first | exact absurd rfl (hs _ _ _) | rfl

theorem stmtTree_other {e : PyExpr Val} (hs : ∀ o k v, e ≠ .setitem o k v) : stmtTree N e = .expr (tree N e) := by
  cases e <;> first | exact absurd rfl (hs _ _ _) | rfl

/-- A text which is read is not empty. -/
theorem ne_of_lex {s : List Char} {ts : List Tok} (h : lexFrom .start s = some ts) (hne : ts ≠ []) : s ≠ [] := by
  rintro rfl
  simp [lexFrom, final] at h
  exact hne h

theorem lines_of (hN : PyNames printable N) : ∀ (es : List (PyExpr Val)), (∀ e ∈ es, wfStmt N e = true) →
    ∃ ts, Lines (es.map (render N)) ts (es.map (stmtTree N))
  | [], _ => ⟨_, .nil⟩
  | e :: es, h => by
    obtain ⟨ts, ih⟩ := lines_of hN es (fun e' he => h e' (List.mem_cons_of_mem _ he))
    have hw := h e List.mem_cons_self
    by_cases hs : ∃ o k v, e = .setitem o k v
    · obtain ⟨o, k, v, rfl⟩ := hs
      simp only [wfStmt, Bool.and_eq_true] at hw
      obtain ⟨ho, hv⟩ := hw
      have h2 := ho
      simp only [wf, Bool.and_eq_true, Bool.not_eq_true'] at h2
      have hl : lexFrom .start (render N (.setitem o k v)).toList = some (toks N (.sub o k) ++ .assign :: toks N v) := by
        have := reads_of hN v hv [] rfl (by simp)
        simp only [render, String.toList_append, List.append_assoc, toks]
        rw [(reads_of hN o h2.1.2).andThen Pc.w_lbr, (reads_of hN k h2.2).andThen Pc.w_setitem]
        rw [List.append_nil] at this
        rw [this]
        simp [lexFrom, final]
      have hx := (code_of hN hv).ex
      have hpr : Pr (toks N (.sub o k)) (.sub (tree N o) (tree N k)) := by
        have := pr_of _ ho rfl
        rwa [tree] at this
      refine ⟨_, .cons hl ?_ (ne_of_lex hl (by simp)) ?_
        (Stmt.simple_assign1 (t := .sub (tree N o) (tree N k)) hpr rfl hx) ih⟩
      · simp only [render, String.toList_append, List.append_assoc]
        exact space_of hN o h2.1.2 _
      · have := hx.okAfter (toks N (.sub o k) ++ [.assign])
        simpa using this
    · have hs' : ∀ o k v, e ≠ .setitem o k v := fun o k v h => hs ⟨o, k, v, h⟩
      rw [wfStmt_expr hs'] at hw
      have hc := code_of hN hw
      refine ⟨_, .cons hc.lx.whole ?_ (ne_of_lex hc.lx.whole hc.ex.last.1) ?_ ?_ ih⟩
      · have := space_of hN e hw []
        simpa using this
      · have := hc.ex.okAfter []
        simpa using this
      · rw [stmtTree_other hs']
        exact simple_of hw

/-! ## `get_or_default` -/

/-- The parameters of `get_or_default` as tokens. -/
def defaultParams (selfGiven : Bool) : List Tok :=
  (if selfGiven then [.name "self_", .comma] else []) ++ [.name "obj_", .comma, .name "default_", .rpar]

/-- The line `except (…):` as tokens. -/
def exceptToks : List Tok :=
  [.lpar, .name "TypeError", .comma, .name "KeyError", .comma, .name "IndexError", .comma, .name "AttributeError", .rpar]

/-- The classes which are caught. -/
def exceptAst : Ast :=
  .display .tuple [.name "TypeError", .name "KeyError", .name "IndexError", .name "AttributeError"]

theorem ex_except : Ex exceptToks exceptAst := Stmt.ev_of_parse (n := 40) (by decide +kernel)

theorem has_except : Has "    except (TypeError, KeyError, IndexError, AttributeError):".toList
    [(4, .kw "except" :: exceptToks ++ [.colon])] :=
  Has.fixed (pre := "except (TypeError, KeyError, IndexError, AttributeError):") 4 (by decide +kernel)
    (by decide +kernel) (by decide +kernel) (by decide +kernel)

theorem has_global : Has "    global add_label_, get_by_label_".toList
    [(4, [.kw "global", .name "add_label_", .comma, .name "get_by_label_"])] :=
  Has.fixed (pre := "global add_label_, get_by_label_") 4 (by decide +kernel) (by decide +kernel) (by decide +kernel)
    (by decide +kernel)

theorem has_try : Has "    try:".toList [(4, [.kw "try", .colon])] :=
  Has.fixed (pre := "try:") 4 rfl (by decide +kernel) (by decide) (by decide)

theorem has_default : Has "        return default_".toList [(8, [.kw "return", .name "default_"])] :=
  Has.fixed (pre := "return default_") 8 rfl (by decide +kernel) (by decide) (by decide)

/-- The parameters of `get_or_default` (1316-1320). -/
def defaultArgs (g : Bool) : List Char := if g then "self_, obj_, default_".toList else "obj_, default_".toList

theorem lex_defaultArgs (g : Bool) :
    lexFrom .start (defaultArgs g ++ "):".toList) = some (defaultParams g ++ [.colon]) := by
  cases g <;> decide +kernel

theorem has_defaultHead {name : String} (hn : isName name = true) (g : Bool) :
    Has ("def ".toList ++ name.toList ++ "(".toList ++ defaultArgs g ++ "):".toList)
      [(0, .kw "def" :: .name name :: .lpar :: (defaultParams g ++ [.colon]))] := by
  have h1 := endLit_ends (s := "(") (by decide) (defaultArgs g ++ "):".toList)
  have hp : Piece "(" [.lpar] := by decide +kernel
  refine has_def (name := name.toList) (params := "(".toList ++ (defaultArgs g ++ "):".toList)) (by simp only [List.append_assoc]) ?_
  rw [reads_name hn true _ h1.1 (fun _ => h1.2), hp.lex, lex_defaultArgs]
  rfl

theorem defines_default {name body : String} {g : Bool} {ts : List Tok} {a : Ast} (hn : isName name = true)
    (h : Code body.toList ts a) :
    Defines (getOrDefaultText name g body) name
      ⟨(if g then ["self_"] else []) ++ ["obj_", "default_"], [], [globalStmt, defaultStmt a]⟩ := by
  have hret := Stmt.simple_ret h.ex
  have hdef : SimpleToks [.kw "return", .name "default_"] (.ret (.name "default_")) :=
    Stmt.simple_ret (Ex.of_rd (pr_name "default_").rd)
  have hp : Stmt.readParams (defaultParams g) = some ((if g then ["self_"] else []) ++ ["obj_", "default_"], []) := by
    cases g <;> rfl
  refine defines_of
    (ts := [.leaf [.kw "global", .name "add_label_", .comma, .name "get_by_label_"],
      .block [.kw "try"] [.leaf (.kw "return" :: ts)],
      .block (.kw "except" :: exceptToks) [.leaf [.kw "return", .name "default_"]]]) ?_
    ⟨by simp [Tree.Ok], ⟨by simp, h.ex.okAfter [.kw "return"], trivial⟩, ⟨by simp, by simp [Tree.Ok], trivial⟩, trivial⟩
    (by simp) hp (by cases g <;> decide)
    (.leaf (Stmt.simple_global rfl) (.try_ (.leaf hret .nil) ex_except (.leaf hdef .nil) .nil))
  have l4 := Has.lineOf (spaced := "        return ") (pre := "return ") 8 (tp := [.kw "return"]) rfl
    (by decide +kernel) (by decide) (by decide) h.lx.whole
  exact (HasAll.cons .nil (.cons (has_defaultHead hn g) (.cons has_global (.cons has_try (.cons l4
    (.cons has_except (.cons has_default (.one .nil)))))))).join

/-! ## Converters -/

/-- The lines of a converter. -/
inductive Stages : List (String × String) → List Tree → List Stmt.Stmt → Prop
  | last {x e : String} {et : List Tok} {ea : Ast} : Code e.toList et ea →
      Stages [(x, e)] [.leaf (.kw "return" :: et)] [.ret ea]
  | cons {x e : String} {et : List Tok} {ea : Ast} {s : String × String} {ss : List (String × String)} {ts : List Tree}
      {b : List Stmt.Stmt} : isName x = true → Code e.toList et ea → Stages (s :: ss) ts b →
      Stages ((x, e) :: s :: ss) (.leaf (.name x :: .assign :: et) :: ts) (.assign [.name x] ea :: b)

theorem Stages.ok {ss : List (String × String)} {ts : List Tree} {b : List Stmt.Stmt} (h : Stages ss ts b) :
    OkAll ts ∧ Seg ts b ∧ Stmt.noElse ts = true := by
  induction h with
  | last h => exact ⟨⟨h.ex.okAfter [.kw "return"], trivial⟩, Seg.leaf (Stmt.simple_ret h.ex), rfl⟩
  | @cons x e et ea s ss ts b hx h _ ih =>
    simp only [isName, Bool.and_eq_true, Bool.not_eq_true'] at hx
    exact ⟨⟨h.ex.okAfter [.name x, .assign], ih.1⟩,
      (Seg.leaf (Stmt.simple_assign1 (pr_name x) (by simp [Stmt.isTarget, hx.2]) h.ex)).append ih.2.1 ih.2.2, rfl⟩

theorem Stages.has {ss : List (String × String)} {ts : List Tree} {b : List Stmt.Stmt} (h : Stages ss ts b) :
    HasAll (stageTexts ss) (flatAll 4 ts) := by
  induction h with
  | @last x e et ea h =>
    have := Has.lineOf (spaced := "    return ") (pre := "return ") 4 (tp := [.kw "return"]) rfl (by decide +kernel)
      (by decide) (by decide) h.lx.whole
    simpa [flatAll, Tree.flat, stageTexts] using HasAll.one this
  | @cons x e et ea s ss ts b hx h h' ih =>
    have hl : lexFrom .start (x.toList ++ (" = ".toList ++ e.toList)) = some (.name x :: .assign :: et) := by
      have h1 := endLit_ends (s := " = ") (by decide) e.toList
      have hp : Piece " = " [.assign] := by decide +kernel
      rw [reads_name hx true _ h1.1 (fun _ => h1.2), hp.lex, h.lx.whole]
      rfl
    have := Stmt.Has.lineAny (spaced := "    ") 4 rfl (name_space hx _) (ne_of_lex hl (by simp)) hl
    have := HasAll.cons this ih
    simpa only [flatAll, Tree.flat, stageTexts, List.append_assoc] using this

theorem Stages.ne {ss : List (String × String)} {ts : List Tree} {b : List Stmt.Stmt} (h : Stages ss ts b) :
    ts ≠ [] := by
  cases h <;> simp

/-- The positional parameters of a converter: `self`, `cls`, `data_` (533-541). -/
def positional (method classMethod : Bool) : List String :=
  (if method then ["self"] else []) ++ (if classMethod then ["cls"] else []) ++ ["data_"]

/-- The parameters as tokens. -/
def signatureToks (method classMethod : Bool) (kws : List String) : List Tok :=
  (if method then [.name "self", .comma] else []) ++ (if classMethod then [.name "cls", .comma] else []) ++
    .name "data_" :: ((if kws.isEmpty then [] else .comma :: .star :: argToks kws) ++ [.rpar])

theorem readNames_args (x : String) : ∀ args : List String,
    Stmt.readNames (.name x :: argToks args) = some (x :: args)
  | [] => rfl
  | a :: as => by
    have h := readNames_args a as
    simp only [argToks, Stmt.readNames, h, Option.map_some]

theorem readParams_signature (m c : Bool) (kws : List String) :
    Stmt.readParams (signatureToks m c kws) = some (positional m c, kws) := by
  have h : Stmt.readParams (.name "data_" :: ((if kws.isEmpty then [] else .comma :: .star :: argToks kws) ++ [.rpar])) =
      some (["data_"], kws) := by
    cases kws with
    | nil => rfl
    | cons k ks =>
      have e : Stmt.readParams (.star :: .comma :: (.name k :: argToks ks ++ [.rpar])) = some ([], k :: ks) := by
        simp only [Stmt.readParams, List.dropLast_concat, readNames_args, List.getLast?_append, List.getLast?_singleton,
          Option.some_or, if_true]
      simp only [List.isEmpty_cons, Bool.false_eq_true, if_false, argToks, List.cons_append, Stmt.readParams] at e ⊢
      rw [e]
      rfl
  cases m <;> cases c <;>
    simp only [signatureToks, positional, Bool.false_eq_true, if_false, if_true, List.nil_append, List.cons_append,
      Stmt.readParams, h, Option.map_some]

theorem lex_signature (m c : Bool) {kws : List String} (hk : kws.all isName = true) :
    lexFrom .start (signatureText m c kws ++ "):".toList) = some (signatureToks m c kws ++ [.colon]) := by
  have h : lexFrom .start ("data_".toList ++
      ((if kws.isEmpty then [] else ", *".toList ++ codeArgs kws) ++ "):".toList)) =
      some (.name "data_" :: ((if kws.isEmpty then [] else .comma :: .star :: argToks kws) ++ [.rpar, .colon])) := by
    cases kws with
    | nil => decide +kernel
    | cons k ks =>
      have h1 := endLit_ends (s := ", *") (by decide) (codeArgs (k :: ks) ++ "):".toList)
      have hp : Piece ", *" [.comma, .star] := by decide +kernel
      simp only [List.isEmpty_cons, Bool.false_eq_true, if_false, List.append_assoc]
      rw [reads_name (s := "data_") (by decide +kernel) true _ h1.1 (fun _ => h1.2), hp.lex,
        Stmt.lex_codeArgs hk "):" (by decide) (tr := [.rpar, .colon]) (by decide +kernel)]
      rfl
  have hs : Piece "self, " [.name "self", .comma] := by decide +kernel
  have hc : Piece "cls, " [.name "cls", .comma] := by decide +kernel
  cases m <;> cases c <;>
    simp only [signatureText, signatureToks, Bool.false_eq_true, if_false, if_true, List.nil_append, List.append_assoc]
      at h ⊢
  · rw [h]; simp
  · rw [hc.lex, h]; simp
  · rw [hs.lex, h]; simp
  · rw [hs.lex, hc.lex, h]; simp

theorem defines_converter {name : String} {m c : Bool} {kws : List String} {ss : List (String × String)}
    {ts : List Tree} {b : List Stmt.Stmt} (hn : isName name = true) (hk : kws.all isName = true)
    (hd : (positional m c ++ kws).Nodup) (h : Stages ss ts b) :
    Defines (converterText name (signatureText m c kws) ss) name ⟨positional m c, kws, globalStmt :: b⟩ := by
  refine defines_of
    (ts := .leaf [.kw "global", .name "add_label_", .comma, .name "get_by_label_"] :: ts) ?_
    ⟨by simp [Tree.Ok], h.ok.1⟩ (by simp) (readParams_signature m c kws) hd
    (.leaf (Stmt.simple_global rfl) h.ok.2.1.stmts)
  have l1 : Has ("def ".toList ++ name.toList ++ "(".toList ++ signatureText m c kws ++ "):".toList)
      [(0, (.kw "def" :: .name name :: .lpar :: signatureToks m c kws) ++ [.colon])] := by
    have hl : lexFrom .start (name.toList ++ ("(".toList ++ (signatureText m c kws ++ "):".toList))) =
        some (.name name :: .lpar :: (signatureToks m c kws ++ [.colon])) := by
      have h1 := endLit_ends (s := "(") (by decide) (signatureText m c kws ++ "):".toList)
      have hp : Piece "(" [.lpar] := by decide +kernel
      rw [reads_name hn true _ h1.1 (fun _ => h1.2), hp.lex, lex_signature m c hk]
      rfl
    have := has_def (cs := "def ".toList ++ name.toList ++ "(".toList ++ signatureText m c kws ++ "):".toList)
      (by simp only [List.append_assoc]) hl
    simpa using this
  have l2 := Has.fixed (spaced := "    global add_label_, get_by_label_") (pre := "global add_label_, get_by_label_") 4
    (ts := [.kw "global", .name "add_label_", .comma, .name "get_by_label_"]) rfl (by decide +kernel) (by decide)
    (by decide)
  have := (HasAll.cons .nil (.cons l1 (.cons l2 (.cons h.has.join (.one .nil))))).join
  simpa [converterText, flatAll, Tree.flat] using this

end

end Verif.Exec
