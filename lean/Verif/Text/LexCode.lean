import Verif.Text.Tree

/-!
# Text: generated code is read as the tokens meant
-/

set_option autoImplicit false

namespace Verif.Text

open Verif.Expr

section
variable {Val : Type}

/-- A text which is read as these tokens before any text at which a word ends (and, with `i`, which does not begin
with a dot). -/
def Reads (i : Bool) (s : String) (ts : List Tok) : Prop :=
  ∀ cs, wEnd cs = true → (i = true → cs.head? ≠ some '.') →
    lexFrom .start (s.toList ++ cs) = (lexFrom .start cs).map (ts ++ ·)

/-- Texts read as tokens. -/
inductive AllRead : List String → List (List Tok) → Prop
  | nil : AllRead [] []
  | cons {s : String} {ts : List Tok} {ss : List String} {tss : List (List Tok)} : Reads true s ts →
      AllRead ss tss → AllRead (s :: ss) (ts :: tss)

theorem Reads.weaken {i : Bool} {s : String} {ts : List Tok} (h : Reads i s ts) : Reads true s ts :=
  fun cs h1 h2 => h cs h1 (fun _ => h2 rfl)

theorem AllRead.append {as bs : List String} {ts us : List (List Tok)} (h1 : AllRead as ts) (h2 : AllRead bs us) :
    AllRead (as ++ bs) (ts ++ us) := by
  induction h1 with
  | nil => exact h2
  | cons h _ ih => exact .cons h ih

theorem AllRead.length {as : List String} {ts : List (List Tok)} (h : AllRead as ts) : as.length = ts.length := by
  induction h with
  | nil => rfl
  | cons _ _ ih => simp [ih]

theorem AllRead.take {as : List String} {ts : List (List Tok)} (h : AllRead as ts) : ∀ n : Nat,
    AllRead (as.take n) (ts.take n) := by
  induction h with
  | nil => intro n; simp only [List.take_nil]; exact .nil
  | cons h1 h2 ih =>
    intro n
    cases n with
    | zero => exact .nil
    | succ n => exact .cons h1 (ih n)

theorem AllRead.drop {as : List String} {ts : List (List Tok)} (h : AllRead as ts) : ∀ n : Nat,
    AllRead (as.drop n) (ts.drop n) := by
  induction h with
  | nil => intro n; simp only [List.drop_nil]; exact .nil
  | cons h1 h2 ih =>
    intro n
    cases n with
    | zero => exact .cons h1 h2
    | succ n => exact ih n

theorem map_append_append {α : Type} (x : Option (List α)) (a b : List α) :
    (x.map (b ++ ·)).map (a ++ ·) = x.map (a ++ b ++ ·) := by
  cases x <;> simp

/-- A fixed piece of text, and its tokens. -/
abbrev Piece (s : String) (ts : List Tok) : Prop := run .start s.toList = some (ts, .start)

/-- A fixed piece of text before which words and numbers end. -/
def endLit (s : String) : Bool :=
  match s.toList with
  | [] => false
  | c :: _ => !idChar c && c != '\'' && c != '"' && c != '.'

theorem Piece.lex {s : String} {ts : List Tok} (h : Piece s ts) (cs : List Char) :
    lexFrom .start (s.toList ++ cs) = (lexFrom .start cs).map (ts ++ ·) := lex_piece s h cs

theorem endLit_ends {s : String} (h : endLit s = true) (cs : List Char) :
    wEnd (s.toList ++ cs) = true ∧ (s.toList ++ cs).head? ≠ some '.' := by
  unfold endLit at h
  cases hs : s.toList with
  | nil => rw [hs] at h; cases h
  | cons c l =>
    rw [hs] at h
    simp only [Bool.and_eq_true, bne_iff_ne, ne_eq] at h
    simp only [List.cons_append, wEnd, Bool.and_eq_true, bne_iff_ne, ne_eq, List.head?_cons, Option.some.injEq]
    exact ⟨⟨⟨h.1.1.1, h.1.1.2⟩, h.1.2⟩, h.2⟩

theorem Reads.before {i : Bool} {s : String} {ts : List Tok} (h : Reads i s ts) (r : String) (he : endLit r = true)
    (cs : List Char) :
    lexFrom .start (s.toList ++ (r.toList ++ cs)) = (lexFrom .start (r.toList ++ cs)).map (ts ++ ·) :=
  h _ (endLit_ends he cs).1 (fun _ => (endLit_ends he cs).2)

theorem Reads.andThen {i : Bool} {s r : String} {ts tr : List Tok} (h : Reads i s ts) (p : Piece r tr)
    (he : endLit r = true := by decide +kernel) (cs : List Char) :
    lexFrom .start (s.toList ++ (r.toList ++ cs)) = (lexFrom .start cs).map (ts ++ tr ++ ·) := by
  rw [h.before r he, p.lex, map_append_append]

theorem Reads.andThenDot {s r : String} {ts tr : List Tok} (h : Reads false s ts) (p : Piece r tr)
    (he : wEnd r.toList = true := by decide +kernel) (hn : r ≠ "" := by decide) (cs : List Char) :
    lexFrom .start (s.toList ++ (r.toList ++ cs)) = (lexFrom .start cs).map (ts ++ tr ++ ·) := by
  rw [h _ _ (by simp), p.lex, map_append_append]
  cases hr : r.toList with
  | nil => exact absurd (String.toList_inj.1 (by rw [hr]; rfl)) hn
  | cons c l => rw [hr] at he; exact he

/-- Texts with a separator. -/
theorem lex_joins {sep : String} {tsep : List Tok} (hs : Piece sep tsep)
    {ss : List String} {tss : List (List Tok)} (h : AllRead ss tss) (cs : List Char) (h1 : wEnd cs = true)
    (h2 : cs.head? ≠ some '.') (he : endLit sep = true := by decide +kernel) :
    lexFrom .start ((join sep ss).toList ++ cs) = (lexFrom .start cs).map (sepBy tsep tss ++ ·) := by
  induction h with
  | nil => simp [join, sepBy]
  | @cons s ts ss tss h ht ih =>
    cases ht with
    | nil =>
      simp only [join, sepBy]
      exact h cs h1 (fun _ => h2)
    | @cons s' ts' ss' tss' h' ht' =>
      simp only [join, sepBy, String.toList_append, List.append_assoc]
      rw [h.andThen hs he, ih, map_append_append]
      congr 1
      funext l
      simp

theorem lex_join {sep r : String} {tsep tr : List Tok} (hs : Piece sep tsep)
    {ss : List String} {tss : List (List Tok)} (h : AllRead ss tss) (hr : Piece r tr)
    (he : endLit sep = true := by decide +kernel) (he' : endLit r = true := by decide +kernel) (cs : List Char) :
    lexFrom .start ((join sep ss).toList ++ (r.toList ++ cs)) =
      (lexFrom .start cs).map (sepBy tsep tss ++ tr ++ ·) := by
  rw [lex_joins hs h _ (endLit_ends he' cs).1 (endLit_ends he' cs).2 he, hr.lex, map_append_append]

theorem Pc.w_colon : Piece ":" [.colon] := by decide +kernel
theorem Pc.w_rpar : Piece ")" [.rpar] := by decide +kernel
theorem Pc.w_for : Piece " for " [.for_] := by decide +kernel
theorem Pc.w_in : Piece " in " [.in_] := by decide +kernel
theorem Pc.w_if : Piece " if " [.if_] := by decide +kernel
theorem Pc.w_attach : Piece " and None or " [.and_, .name "None", .or_] := by decide +kernel
theorem Pc.w_lbr : Piece "[" [.lbr] := by decide +kernel
theorem Pc.w_rbr : Piece "]" [.rbr] := by decide +kernel
theorem Pc.w_dot : Piece "." [.dot] := by decide +kernel
theorem Pc.w_commaSp : Piece ", " [.comma] := by decide +kernel
theorem Pc.w_lpar : Piece "(" [.lpar] := by decide +kernel
theorem Pc.w_rbrpar : Piece "])" [.rbr, .rpar] := by decide +kernel
theorem Pc.w_else : Piece " else " [.else_] := by decide +kernel
theorem Pc.w_colonSp : Piece ": " [.colon] := by decide +kernel
theorem Pc.w_comma : Piece "," [.comma] := by decide +kernel
theorem Pc.w_pop : Piece ".pop(" [.dot, .name "pop", .lpar] := by decide +kernel
theorem Pc.w_commapar : Piece ",)" [.comma, .rpar] := by decide +kernel
theorem Pc.w_rcu : Piece "}" [.rcu] := by decide +kernel
theorem Pc.w_rpars : Piece "))" [.rpar, .rpar] := by decide +kernel
theorem Pc.w_or : Piece " or " [.or_] := by decide +kernel
theorem Pc.w_and : Piece " and " [.and_] := by decide +kernel
theorem Pc.w_eqeq : Piece " == " [.eqeq] := by decide +kernel
theorem Pc.w_sortedF : Piece "sorted(" [.name "sorted", .lpar] := by decide +kernel
theorem Pc.w_tupleF : Piece "tuple(" [.name "tuple", .lpar] := by decide +kernel
theorem Pc.w_OrderedDictF : Piece "OrderedDict(" [.name "OrderedDict", .lpar] := by decide +kernel
theorem Pc.w_get_by_label_F : Piece "get_by_label_(" [.name "get_by_label_", .lpar] := by decide +kernel
theorem Pc.w_add_label_F : Piece "add_label_(" [.name "add_label_", .lpar] := by decide +kernel
theorem Pc.w_getattrF : Piece "getattr(" [.name "getattr", .lpar] := by decide +kernel
theorem Pc.w_not : Piece "(not " [.lpar, .not_] := by decide +kernel
theorem Pc.w_minus : Piece "(-" [.lpar, .minus] := by decide +kernel
theorem Pc.w_lcu : Piece "{" [.lcu] := by decide +kernel
theorem Pc.w_listF : Piece "list(" [.name "list", .lpar] := by decide +kernel
theorem Pc.w_setF : Piece "set(" [.name "set", .lpar] := by decide +kernel
theorem Pc.w_dictF : Piece "dict(" [.name "dict", .lpar] := by decide +kernel
theorem Pc.w_setattrF : Piece "setattr(" [.name "setattr", .lpar] := by decide +kernel
theorem Pc.w_delattrF : Piece "delattr(" [.name "delattr", .lpar] := by decide +kernel

theorem reads_nameTok {s : String} (h : isNameTok s = true) (i : Bool) : Reads i s [.name s] := by
  intro cs h1 _
  simp only [isNameTok, Bool.and_eq_true, decide_eq_true_eq] at h
  rw [lex_word _ _ h.1 h1, String.ofList_toList, h.2]
  rfl

theorem isNameTok_of {s : String} (h : isName s = true) : isNameTok s = true := by
  simp only [isName, Bool.and_eq_true] at h
  exact h.1

theorem reads_name {s : String} (h : isName s = true) (i : Bool) : Reads i s [.name s] :=
  reads_nameTok (isNameTok_of h) i

theorem wEnd_nEnd {cs : List Char} (h1 : wEnd cs = true) (h2 : cs.head? ≠ some '.') : nEnd cs = true := by
  cases cs with
  | nil => rfl
  | cons c cs =>
    simp only [wEnd, Bool.and_eq_true] at h1
    simp only [nEnd, Bool.and_eq_true, bne_iff_ne, ne_eq]
    exact ⟨h1.1.1, fun h => h2 (by simp [h])⟩

variable {printable : Char → Bool} {N : Names Val}

theorem reads_const (hN : PyNames printable N) (l : Lit Val) : Reads (isInt (.const l)) (N.const l) (litToks N l) := by
  cases l with
  | none =>
    rw [hN.none]
    exact reads_nameTok rfl _
  | bool b =>
    rw [hN.bool]
    cases b
    · exact reads_nameTok rfl _
    · exact reads_nameTok rfl _
  | int i =>
    intro cs h1 h2
    rw [hN.int, String.toList_ofList, lex_reprInt _ _ (wEnd_nEnd h1 (h2 rfl))]
    cases i <;> rfl
  | str s =>
    intro cs _ _
    rw [hN.str, String.toList_ofList, lex_reprStr]
    rfl
  | obj v => exact reads_name (hN.obj v) _

/-- No text of a constant or name begins with `=`. -/
theorem const_head (hN : PyNames printable N) (l : Lit Val) (cs : List Char) :
    ((N.const l).toList ++ cs).head? ≠ some '=' ∧ (N.const l).toList ≠ [] := by
  have hname : ∀ s : String, isNameTok s = true → ∀ cs, (s.toList ++ cs).head? ≠ some '=' ∧ s.toList ≠ [] := by
    intro s h cs
    simp only [isNameTok, Bool.and_eq_true] at h
    cases hs : s.toList with
    | nil => rw [hs] at h; simp [isWordText] at h
    | cons c t =>
      rw [hs] at h
      simp only [isWordText, Bool.and_eq_true] at h
      refine ⟨?_, by simp⟩
      simp only [List.cons_append, List.head?_cons, ne_eq, Option.some.injEq]
      rintro rfl
      exact absurd h.1.1 (by decide)
  have hdig : ∀ n (cs : List Char), (Nat.toDigits 10 n ++ cs).head? ≠ some '=' ∧ Nat.toDigits 10 n ≠ [] := by
    intro n cs
    have hd : ∀ c ∈ Nat.toDigits 10 n, c.isDigit = true := fun c hc =>
      Nat.isDigit_of_mem_toDigits (by decide) (by decide) hc
    cases hs : Nat.toDigits 10 n with
    | nil => exact absurd hs Nat.toDigits_ne_nil
    | cons c s =>
      rw [hs] at hd
      refine ⟨?_, by simp⟩
      simp only [List.cons_append, List.head?_cons, ne_eq, Option.some.injEq]
      rintro rfl
      exact absurd (hd '=' (by simp)) (by decide)
  cases l with
  | none => rw [hN.none]; exact hname _ rfl _
  | bool b => rw [hN.bool]; cases b <;> exact hname _ rfl _
  | int i =>
    rw [hN.int, String.toList_ofList]
    cases i with
    | ofNat n => exact hdig n cs
    | negSucc n => simp [reprInt]
  | str s =>
    rw [hN.str, String.toList_ofList]
    rcases quoteFor_quote s.toList with h | h <;> simp [reprStr, h]
  | obj v => exact hname _ (isNameTok_of (hN.obj v)) _

theorem name_head {s : String} (h : isName s = true) (cs : List Char) : (s.toList ++ cs).head? ≠ some '=' := by
  have h := isNameTok_of h
  simp only [isNameTok, Bool.and_eq_true] at h
  cases hs : s.toList with
  | nil => rw [hs] at h; simp [isWordText] at h
  | cons c t =>
    rw [hs] at h
    simp only [isWordText, Bool.and_eq_true] at h
    simp only [List.cons_append, List.head?_cons, ne_eq, Option.some.injEq]
    rintro rfl
    exact absurd h.1.1 (by decide)

theorem lit_head (s : String) (t : String) (cs : List Char) (c : Char) (l : List Char) (h : s.toList = c :: l) (hc : c ≠ '=') :
    ((s ++ t).toList ++ cs).head? ≠ some '=' := by
  rw [String.toList_append, h]
  simpa using hc

mutual

/-- No generated text begins with `=`. -/
theorem head_of (hN : PyNames printable N) : ∀ (e : PyExpr Val), wf N e = true → ∀ cs,
    ((render N e).toList ++ cs).head? ≠ some '='
  | .name n, h, cs => by simp only [wf] at h; exact name_head h cs
  | .const l, _, cs => (const_head hN l cs).1
  | .getLabel l, _, cs => by simp [render]
  | .addLabel l e, _, cs => by simp [render]
  | .attach a b, _, cs => by simp [render]
  | .sub e i, h, cs => by
    simp only [wf, Bool.and_eq_true] at h
    simp only [render, String.toList_append, List.append_assoc]
    exact head_of hN e h.1.2 _
  | .dot e a, h, cs => by
    simp only [wf, Bool.and_eq_true] at h
    simp only [render, String.toList_append, List.append_assoc]
    exact head_of hN e h.2 _
  | .getattr e i, _, cs => by simp [render]
  | .call f args kw, h, cs => by
    simp only [wf, Bool.and_eq_true] at h
    simp only [render, String.toList_append, List.append_assoc]
    exact head_of hN f h.1.2 _
  | .boolop isAnd es, _, cs => by simp [render]
  | .eqs es, _, cs => by simp [render]
  | .not e, _, cs => by simp [render]
  | .bin o a b, _, cs => by cases o <;> simp [render]
  | .neg e, _, cs => by simp [render]
  | .ifexp t c f, _, cs => by simp [render]
  | .comp k item value var iter hasCond cond sort, _, cs => by
    cases sort with
    | none => cases k <;> simp [render, sortText]
    | some p => cases k <;> simp [render, sortText]
  | .display k items, _, cs => by cases k <;> simp [render]
  | .getOrDefault fname _ selfGiven self obj dflt, h, cs => by
    simp only [wf, Bool.and_eq_true] at h
    simp only [render, String.toList_append, List.append_assoc]
    exact name_head h.1.1.1.1 _
  | .optItems k fname _ _ obj args, _, cs => by cases k <;> simp [render]
  | .optDict fname _ _ obj args, _, cs => by simp [render]
  | .tap fname obj _ args, h, cs => by
    simp only [wf, Bool.and_eq_true] at h
    simp only [render, String.toList_append, List.append_assoc]
    exact name_head h.1.1 _
  | .setattr o k v, _, cs => by simp [render]
  | .pop o k, h, cs => by
    simp only [wf, Bool.and_eq_true] at h
    simp only [render, String.toList_append, List.append_assoc]
    exact head_of hN o h.1.2 _
  | .delattr o k, _, cs => by simp [render]
  | .setitem _ _ _, h, _ => by simp [wf] at h
  | .bad _, h, _ => by simp [wf] at h
  | .given _ _, h, _ => by simp [wf] at h

end

theorem Pc.w_assign : run .start "=".toList = some ([], .op '=') := by decide +kernel

theorem wfAll_iff : ∀ {es : List (PyExpr Val)}, wfAll N es = true ↔ ∀ e ∈ es, wf N e = true
  | [] => by simp [wfAll]
  | e :: es => by simp [wfAll, wfAll_iff (es := es)]

theorem allRead_kw {as : List String} {ts : List (List Tok)} (h : AllRead as ts)
    (hh : ∀ a ∈ as, ∀ cs, (a.toList ++ cs).head? ≠ some '=') : ∀ kw : List String, kw.all isName = true →
    AllRead (List.zipWith (fun k t => k ++ "=" ++ t) kw as)
      (List.zipWith (fun k t => .name k :: .assign :: t) kw ts) := by
  induction h with
  | nil => intro kw _; simp only [List.zipWith_nil_right]; exact .nil
  | @cons s t ss tss h1 h2 ih =>
    intro kw hk
    cases kw with
    | nil => exact .nil
    | cons k kw =>
      simp only [List.all_cons, Bool.and_eq_true] at hk
      refine .cons ?_ (ih (fun a ha => hh a (List.mem_cons_of_mem _ ha)) kw hk.2)
      intro cs e1 e2
      simp only [String.toList_append, List.append_assoc]
      rw [(reads_name hk.1 false).before "=" (by decide +kernel), lex_piece_assign "=" Pc.w_assign _ (hh s (by simp) cs), h1 cs e1 e2]
      cases lexFrom .start cs <;> simp

theorem allRead_withKw {as : List String} {ts : List (List Tok)} (h : AllRead as ts)
    (hh : ∀ a ∈ as, ∀ cs, (a.toList ++ cs).head? ≠ some '=') {kw : List String} (hk : kw.all isName = true) :
    AllRead (withKw kw as) (kwToks kw ts) := by
  simp only [withKw, kwToks]
  rw [← h.length]
  refine (h.take _).append (allRead_kw (h.drop _) ?_ kw hk)
  intro a ha cs
  exact hh a (List.mem_of_mem_drop ha) cs

theorem allRead_pairs : ∀ {as : List String} {ts : List (List Tok)}, AllRead as ts →
    AllRead (pairTexts as) (pairToks ts)
  | _, _, .nil => .nil
  | _, _, .cons _ .nil => .nil
  | _, _, .cons (s := s) (ts := t) h1 (.cons (s := s') (ts := t') h2 h3) => by
    refine .cons ?_ (allRead_pairs h3)
    intro cs e1 e2
    simp only [String.toList_append, List.append_assoc]
    rw [(h1).andThen Pc.w_colon, h2 cs e1 e2]
    cases lexFrom .start cs <;> simp

theorem allRead_names : ∀ {as : List String}, as.all isName = true → AllRead as (as.map (fun a => [.name a]))
  | [], _ => .nil
  | a :: as, h => by
    simp only [List.all_cons, Bool.and_eq_true] at h
    exact .cons (reads_name h.1 true) (allRead_names h.2)

theorem reads_quoted {s : String} (h : plainText s.toList = true) (cs : List Char) :
    lexFrom .start ('\'' :: (s.toList ++ '\'' :: cs)) = (lexFrom .start cs).map ([.str s.toList] ++ ·) :=
  lex_quoted _ _ h

theorem lex_comma_join {r : String} {tr : List Tok} {ss : List String} {tss : List (List Tok)} (h : AllRead ss tss)
    (hr : Piece r tr) (he' : endLit r = true := by decide +kernel) (cs : List Char) :
    lexFrom .start ((join "," ss).toList ++ (r.toList ++ cs)) =
      (lexFrom .start cs).map (sepBy [.comma] tss ++ tr ++ ·) :=
  lex_join Pc.w_comma h hr (by decide +kernel) he' cs

theorem Pc.w_key : run .start ", key=".toList = some ([.comma, .name "key"], .op '=') := by decide +kernel
theorem Pc.w_reverse : run .start ",reverse=".toList = some ([.comma, .name "reverse"], .op '=') := by decide +kernel

theorem reads_sort (hN : PyNames printable N) (k : Kind) {s : String} {ts : List Tok} (h : Reads false s ts)
    (sort : Option (Lit Val × Bool)) : Reads false (sortText N k s sort) (sortToks N k ts sort) := by
  cases sort with
  | none => exact h
  | some p =>
    obtain ⟨key, rev⟩ := p
    have key' : ∀ cs, lexFrom .start ("sorted(".toList ++ (s.toList ++ (", key=".toList ++ ((N.const key).toList ++
        (",reverse=".toList ++ ((N.const (.bool rev)).toList ++ (")".toList ++ cs))))))) =
        (lexFrom .start cs).map ((.name "sorted" :: .lpar :: (ts ++ .comma :: .name "key" :: .assign ::
          (litToks N key ++ .comma :: .name "reverse" :: .assign :: (litToks N (.bool rev) ++ [.rpar])))) ++ ·) := by
      intro cs
      rw [Pc.w_sortedF.lex, h.before ", key=" (by decide +kernel), lex_piece_assign ", key=" Pc.w_key _ (const_head hN _ _).1,
        (reads_const hN key).before ",reverse=" (by decide +kernel), lex_piece_assign ",reverse=" Pc.w_reverse _ (const_head hN _ _).1,
        (reads_const hN (.bool rev)).andThen Pc.w_rpar]
      cases lexFrom .start cs <;> simp
    intro cs _ _
    cases k <;> simp only [sortText, sortToks, String.toList_append, List.append_assoc]
    · exact key' cs
    · rw [Pc.w_tupleF.lex, key', Pc.w_rpar.lex]
      cases lexFrom .start cs <;> simp
    · exact key' cs
    · rw [Pc.w_OrderedDictF.lex, key', Pc.w_rpar.lex]
      cases lexFrom .start cs <;> simp

/-- The part of a comprehension between the brackets. -/
theorem reads_gen {it var iter cond : String} {tit titer tcond : List Tok} {hasCond : Bool} (h1 : Reads true it tit)
    (h2 : isName var = true) (h3 : Reads true iter titer) (h4 : Reads true cond tcond) :
    Reads true (it ++ " for " ++ var ++ " in " ++ iter ++ (if hasCond then " if " ++ cond else ""))
      (tit ++ .for_ :: .name var :: .in_ :: (titer ++ if hasCond then .if_ :: tcond else [])) := by
  intro cs e1 e2
  cases hasCond
  · simp only [String.toList_append, List.append_assoc, Bool.false_eq_true, if_false]
    rw [(h1).andThen Pc.w_for, (reads_name h2 true).andThen Pc.w_in,
      String.toList_empty, List.nil_append, h3 _ e1 e2]
    cases lexFrom .start cs <;> simp
  · simp only [String.toList_append, List.append_assoc, if_true]
    rw [(h1).andThen Pc.w_for, (reads_name h2 true).andThen Pc.w_in,
      (h3).andThen Pc.w_if, h4 _ e1 e2]
    cases lexFrom .start cs <;> simp

/-- A text in brackets. -/
theorem reads_in {s l r : String} {ts tl tr : List Tok} (h : Reads true s ts) (hl : Piece l tl) (hr : Piece r tr)
    (he : endLit r = true := by decide +kernel) : Reads false (l ++ s ++ r) (tl ++ (ts ++ tr)) := by
  intro cs _ _
  simp only [String.toList_append, List.append_assoc]
  rw [hl.lex, h.andThen hr he]
  cases lexFrom .start cs <;> simp

theorem piece_op (o : BinOp) (h : o ≠ .index) : Piece o.text (opToks o) := by
  cases o <;> first | exact absurd rfl h | decide +kernel

theorem op_end (o : BinOp) (h : o ≠ .index) : endLit o.text = true := by
  cases o <;> first | exact absurd rfl h | decide +kernel

theorem renderAll_mem : ∀ {es : List (PyExpr Val)} {a : String}, a ∈ renderAll N es → ∃ e ∈ es, a = render N e
  | [], a, h => by simp [renderAll] at h
  | e :: es, a, h => by
    simp only [renderAll, List.mem_cons] at h
    rcases h with rfl | h
    · exact ⟨e, by simp, rfl⟩
    · obtain ⟨e', h1, h2⟩ := renderAll_mem h
      exact ⟨e', List.mem_cons_of_mem _ h1, h2⟩

set_option maxHeartbeats 1600000 in
mutual

/-- Generated text is read as the tokens meant. -/
theorem reads_of (hN : PyNames printable N) : ∀ (e : PyExpr Val), wf N e = true →
    Reads (isInt e) (render N e) (toks N e)
  | .name n, h => by simp only [wf] at h; exact reads_name h _
  | .const l, _ => reads_const hN l
  | .getLabel l, h => by
    simp only [wf] at h
    intro cs _ _
    simp only [render, toks, String.toList_append, List.append_assoc]
    rw [show "get_by_label_('".toList ++ ((l.text N).toList ++ ("')".toList ++ cs)) =
      "get_by_label_(".toList ++ ('\'' :: ((l.text N).toList ++ '\'' :: (")".toList ++ cs))) from rfl,
      Pc.w_get_by_label_F.lex, reads_quoted h, Pc.w_rpar.lex]
    cases lexFrom .start cs <;> simp
  | .addLabel l e, h => by
    simp only [wf, Bool.and_eq_true] at h
    intro cs _ _
    simp only [render, toks, String.toList_append, List.append_assoc]
    rw [show "add_label_('".toList ++ ((l.text N).toList ++ ("', ".toList ++ ((render N e).toList ++
      (")".toList ++ cs)))) = "add_label_(".toList ++ ('\'' :: ((l.text N).toList ++ '\'' :: (", ".toList ++
      ((render N e).toList ++ (")".toList ++ cs))))) from rfl,
      Pc.w_add_label_F.lex, reads_quoted h.1, Pc.w_commaSp.lex, (reads_of hN e h.2).andThen Pc.w_rpar]
    cases lexFrom .start cs <;> simp
  | .attach a b, h => by
    simp only [wf, Bool.and_eq_true] at h
    intro cs _ _
    simp only [render, toks, String.toList_append, List.append_assoc]
    rw [Pc.w_lpar.lex, (reads_of hN a h.1).andThen Pc.w_attach,
      (reads_of hN b h.2).andThen Pc.w_rpar]
    cases lexFrom .start cs <;> simp
  | .sub e i, h => by
    simp only [wf, Bool.and_eq_true] at h
    intro cs _ _
    simp only [render, toks, String.toList_append, List.append_assoc]
    rw [(reads_of hN e h.1.2).andThen Pc.w_lbr,
      (reads_of hN i h.2).andThen Pc.w_rbr]
    cases lexFrom .start cs <;> simp
  | .dot e a, h => by
    simp only [wf, Bool.and_eq_true, Bool.not_eq_true'] at h
    intro cs e1 e2
    simp only [render, toks, String.toList_append, List.append_assoc]
    rw [(Reads.andThenDot (by have := reads_of hN e h.2; rwa [h.1.1] at this) Pc.w_dot), reads_name h.1.2 false _ e1 (by simp)]
    cases lexFrom .start cs <;> simp
  | .getattr e i, h => by
    simp only [wf, Bool.and_eq_true] at h
    intro cs _ _
    simp only [render, toks, String.toList_append, List.append_assoc]
    rw [Pc.w_getattrF.lex, (reads_of hN e h.1).andThen Pc.w_commaSp,
      (reads_of hN i h.2).andThen Pc.w_rpar]
    cases lexFrom .start cs <;> simp
  | .call f args kw, h => by
    simp only [wf, Bool.and_eq_true, decide_eq_true_eq] at h
    intro cs _ _
    simp only [render, toks, String.toList_append, List.append_assoc]
    have hw := allRead_withKw (reads_all hN args h.2) (by
      intro a ha cs
      obtain ⟨e, he, rfl⟩ := renderAll_mem ha
      exact head_of hN e (wfAll_iff.1 h.2 e he) cs) h.1.1.1.2
    rw [(reads_of hN f h.1.2).andThen Pc.w_lpar, lex_comma_join hw Pc.w_rpar]
    cases lexFrom .start cs <;> simp
  | .boolop isAnd es, h => by
    simp only [wf, Bool.and_eq_true] at h
    intro cs _ _
    simp only [render, toks, String.toList_append, List.append_assoc]
    rw [Pc.w_lpar.lex]
    cases isAnd
    · simp only [Bool.false_eq_true, if_false]
      rw [lex_join Pc.w_or (reads_all hN es h.2) Pc.w_rpar]
      cases lexFrom .start cs <;> simp
    · simp only [if_true]
      rw [lex_join Pc.w_and (reads_all hN es h.2) Pc.w_rpar]
      cases lexFrom .start cs <;> simp
  | .eqs es, h => by
    simp only [wf, Bool.and_eq_true] at h
    intro cs _ _
    simp only [render, toks, String.toList_append, List.append_assoc]
    rw [Pc.w_lpar.lex, lex_join Pc.w_eqeq (reads_all hN es h.2) Pc.w_rpar]
    cases lexFrom .start cs <;> simp
  | .not e, h => by
    simp only [wf] at h
    intro cs _ _
    simp only [render, toks, String.toList_append, List.append_assoc]
    rw [Pc.w_not.lex, (reads_of hN e h).andThen Pc.w_rpar]
    cases lexFrom .start cs <;> simp
  | .bin o a b, h => by
    cases o
    case index =>
      simp only [wf, Bool.and_eq_true] at h
      intro cs _ _
      simp only [render, toks, String.toList_append, List.append_assoc]
      rw [Pc.w_lpar.lex, (reads_of hN a h.1.2).andThen Pc.w_lbr, (reads_of hN b h.2).andThen Pc.w_rbrpar]
      cases lexFrom .start cs <;> simp
    all_goals
      simp only [wf, Bool.and_eq_true] at h
      intro cs _ _
      simp only [render, toks, String.toList_append, List.append_assoc]
      rw [Pc.w_lpar.lex, (reads_of hN a h.1).andThen (piece_op _ (by simp)) (op_end _ (by simp)),
        (reads_of hN b h.2).andThen Pc.w_rpar]
      cases lexFrom .start cs <;> simp [opToks]
  | .neg e, h => by
    simp only [wf] at h
    intro cs _ _
    simp only [render, toks, String.toList_append, List.append_assoc]
    rw [Pc.w_minus.lex, (reads_of hN e h).andThen Pc.w_rpar]
    cases lexFrom .start cs <;> simp
  | .ifexp t c f, h => by
    simp only [wf, Bool.and_eq_true] at h
    intro cs _ _
    simp only [render, toks, String.toList_append, List.append_assoc]
    rw [Pc.w_lpar.lex, (reads_of hN t h.1.1).andThen Pc.w_if,
      (reads_of hN c h.1.2).andThen Pc.w_else, (reads_of hN f h.2).andThen Pc.w_rpar]
    cases lexFrom .start cs <;> simp
  | .comp k item value var iter hasCond cond sort, h => by
    simp only [wf, Bool.and_eq_true] at h
    obtain ⟨⟨⟨⟨⟨_, hv⟩, h1⟩, h2⟩, h3⟩, h4⟩ := h
    have r1 := (reads_of hN item h1).weaken
    have r2 := (reads_of hN value h2).weaken
    have r3 := (reads_of hN iter h3).weaken
    have r4 := (reads_of hN cond h4).weaken
    simp only [render, toks, isInt]
    apply reads_sort hN
    cases k
    · exact reads_in (reads_gen r1 hv r3 r4) Pc.w_lbr Pc.w_rbr
    · cases sort with
      | none => exact reads_in (reads_gen r1 hv r3 r4) Pc.w_tupleF Pc.w_rpar
      | some p => exact reads_in (reads_gen r1 hv r3 r4) Pc.w_lpar Pc.w_rpar
    · exact reads_in (reads_gen r1 hv r3 r4) Pc.w_lcu Pc.w_rcu
    · cases sort with
      | none =>
        have r5 : Reads true (render N item ++ ": " ++ render N value) (toks N item ++ .colon :: toks N value) := by
          intro cs c1 c2
          simp only [String.toList_append, List.append_assoc]
          rw [r1.andThen Pc.w_colonSp, r2 _ c1 c2]
          cases lexFrom .start cs <;> simp
        exact reads_in (reads_gen r5 hv r3 r4) Pc.w_lcu Pc.w_rcu
      | some p =>
        have r5 : Reads true ("(" ++ render N item ++ ", " ++ render N value ++ ")")
            (.lpar :: (toks N item ++ .comma :: (toks N value ++ [.rpar]))) := by
          intro cs c1 c2
          simp only [String.toList_append, List.append_assoc]
          rw [Pc.w_lpar.lex, r1.andThen Pc.w_commaSp, r2.andThen Pc.w_rpar]
          cases lexFrom .start cs <;> simp
        exact reads_in (reads_gen r5 hv r3 r4) Pc.w_lpar Pc.w_rpar
  | .display k items, h => by
    simp only [wf, Bool.and_eq_true] at h
    have hr := reads_all hN items h.2
    intro cs _ _
    cases k <;> simp only [render, toks, String.toList_append, List.append_assoc]
    · rw [Pc.w_lbr.lex, lex_comma_join hr Pc.w_rbr]
      cases lexFrom .start cs <;> simp
    · rw [Pc.w_lpar.lex, lex_comma_join hr Pc.w_commapar]
      cases lexFrom .start cs <;> simp
    · rw [Pc.w_lcu.lex, lex_comma_join hr Pc.w_rcu]
      cases lexFrom .start cs <;> simp
    · rw [Pc.w_lcu.lex, lex_comma_join (allRead_pairs hr) Pc.w_rcu]
      cases lexFrom .start cs <;> simp
  | .getOrDefault fname _ selfGiven self obj dflt, h => by
    simp only [wf, Bool.and_eq_true] at h
    obtain ⟨⟨⟨⟨h1, _⟩, h2⟩, h3⟩, h4⟩ := h
    intro cs _ _
    cases selfGiven
    · simp only [render, toks, String.toList_append, List.append_assoc, Bool.false_eq_true, if_false,
        String.toList_empty, List.nil_append]
      rw [(reads_name h1 true).andThen Pc.w_lpar, (reads_of hN obj h3).andThen Pc.w_comma, (reads_of hN dflt h4).andThen Pc.w_rpar]
      cases lexFrom .start cs <;> simp
    · simp only [render, toks, String.toList_append, List.append_assoc, if_true]
      rw [(reads_name h1 true).andThen Pc.w_lpar, (reads_of hN self h2).andThen Pc.w_comma, (reads_of hN obj h3).andThen Pc.w_comma, (reads_of hN dflt h4).andThen Pc.w_rpar]
      cases lexFrom .start cs <;> simp
  | .optItems k fname _ body obj args, h => by
    simp only [wf, Bool.and_eq_true] at h
    obtain ⟨⟨⟨h1, _⟩, h2⟩, h3⟩ := h
    have hr : AllRead (render N obj :: args) (toks N obj :: args.map (fun a => [.name a])) :=
      .cons (reads_of hN obj h2).weaken (allRead_names h3)
    intro cs _ _
    cases k <;> simp only [render, toks, String.toList_append, List.append_assoc, kindName]
    · rw [Pc.w_listF.lex, (reads_name h1 true).andThen Pc.w_lpar,
        lex_comma_join hr Pc.w_rpars]
      cases lexFrom .start cs <;> simp
    · rw [Pc.w_tupleF.lex, (reads_name h1 true).andThen Pc.w_lpar,
        lex_comma_join hr Pc.w_rpars]
      cases lexFrom .start cs <;> simp
    · rw [Pc.w_setF.lex, (reads_name h1 true).andThen Pc.w_lpar,
        lex_comma_join hr Pc.w_rpars]
      cases lexFrom .start cs <;> simp
    · rw [Pc.w_dictF.lex, (reads_name h1 true).andThen Pc.w_lpar,
        lex_comma_join hr Pc.w_rpars]
      cases lexFrom .start cs <;> simp
  | .optDict fname _ body obj args, h => by
    simp only [wf, Bool.and_eq_true] at h
    obtain ⟨⟨⟨h1, _⟩, h2⟩, h3⟩ := h
    have hr : AllRead (render N obj :: args) (toks N obj :: args.map (fun a => [.name a])) :=
      .cons (reads_of hN obj h2).weaken (allRead_names h3)
    intro cs _ _
    simp only [render, toks, String.toList_append, List.append_assoc]
    rw [Pc.w_dictF.lex, (reads_name h1 true).andThen Pc.w_lpar,
      lex_comma_join hr Pc.w_rpars]
    cases lexFrom .start cs <;> simp
  | .tap fname obj _ args, h => by
    simp only [wf, Bool.and_eq_true] at h
    obtain ⟨⟨h1, h2⟩, h3⟩ := h
    have hr : AllRead (render N obj :: args) (toks N obj :: args.map (fun a => [.name a])) :=
      .cons (reads_of hN obj h2).weaken (allRead_names h3)
    intro cs _ _
    simp only [render, toks, String.toList_append, List.append_assoc]
    rw [(reads_name h1 true).andThen Pc.w_lpar,
      lex_comma_join hr Pc.w_rpar]
    cases lexFrom .start cs <;> simp
  | .setattr o k v, h => by
    simp only [wf, Bool.and_eq_true] at h
    intro cs _ _
    simp only [render, toks, String.toList_append, List.append_assoc]
    rw [Pc.w_setattrF.lex, (reads_of hN o h.1.1).andThen Pc.w_commaSp,
      (reads_of hN k h.1.2).andThen Pc.w_commaSp, (reads_of hN v h.2).andThen Pc.w_rpar]
    cases lexFrom .start cs <;> simp
  | .pop o k, h => by
    simp only [wf, Bool.and_eq_true, Bool.not_eq_true'] at h
    intro cs _ _
    simp only [render, toks, String.toList_append, List.append_assoc]
    rw [(Reads.andThenDot (by have := reads_of hN o h.1.2; rwa [h.1.1] at this) Pc.w_pop),
      (reads_of hN k h.2).andThen Pc.w_rpar]
    cases lexFrom .start cs <;> simp
  | .delattr o k, h => by
    simp only [wf, Bool.and_eq_true] at h
    intro cs _ _
    simp only [render, toks, String.toList_append, List.append_assoc]
    rw [Pc.w_delattrF.lex, (reads_of hN o h.1).andThen Pc.w_commaSp,
      (reads_of hN k h.2).andThen Pc.w_rpar]
    cases lexFrom .start cs <;> simp
  | .setitem _ _ _, h => by simp [wf] at h
  | .bad _, h => by simp [wf] at h
  | .given _ _, h => by simp [wf] at h

theorem reads_all (hN : PyNames printable N) : ∀ (es : List (PyExpr Val)), wfAll N es = true →
    AllRead (renderAll N es) (toksAll N es)
  | [], _ => .nil
  | e :: es, h => by
    simp only [wfAll, Bool.and_eq_true] at h
    exact .cons (reads_of hN e h.1).weaken (reads_all hN es h.2)

end

/-- The whole text. -/
theorem lex_render (hN : PyNames printable N) (e : PyExpr Val) (h : wf N e = true) :
    lex (render N e) = some (toks N e) := by
  have := reads_of hN e h [] rfl (by simp)
  simp only [List.append_nil] at this
  rw [lex, this]
  simp [lexFrom, final]

end

end Verif.Text
