import Verif.Stmt.TemplateParts

/-!
# Stmt: how Python reads the texts of the reducers

Nothing here is code of the repository.
-/

set_option autoImplicit false

namespace Verif.Stmt

open Verif.Text Verif.Agg

/-! ## Tokens of lines with codes in them -/

/-- The name in the place of an argument. -/
def argPh : Nat → String
  | 0 => "%0"
  | 1 => "%1"
  | 2 => "%2"
  | _ => "%3"

/-- The name in the place of the variable. -/
def resPh : String := "%r"

/-- Names which stand for codes are no names of Python. -/
def isPh (x : String) : Bool := x.toList.head? = some '%'

/-- What may follow a code. -/
def okFollow (dot : Bool) : List TPart → Bool
  | [] => true
  | .ch c :: _ => !idChar c && c != '\'' && c != '"' && (dot || c != '.')
  | _ => false

/-- The token does not stand for a code. -/
def plainTok : Tok → Bool
  | .name x => !isPh x
  | _ => true

/-- The tokens of a line, with names in the place of codes. -/
def lexParts : LexState → List TPart → Option (List Tok)
  | st, [] => (final st).bind fun ts => if ts.all plainTok then some ts else none
  | st, .ch c :: l =>
    (step st c).bind fun (o, st') => if o.all plainTok then (lexParts st' l).map (o ++ ·) else none
  | st, .res :: l =>
    if st = .start ∧ okFollow true l = true then (lexParts .start l).map (.name resPh :: ·) else none
  | st, .arg n :: l =>
    if st = .start ∧ okFollow false l = true then (lexParts .start l).map (.name (argPh n) :: ·) else none

/-- The text is read as these tokens, before any text at which words end. -/
def LxDot (s : List Char) (ts : List Tok) : Prop :=
  ∀ cs, wEnd cs = true → lexFrom .start (s ++ cs) = (lexFrom .start cs).map (ts ++ ·)

theorem LxDot.lx {s : List Char} {ts : List Tok} (h : LxDot s ts) : Lx s ts := fun cs h1 _ => h cs h1

/-- What the names in a template stand for. -/
structure Puts (var : List Char) (args : List (List Char)) (σ : Fill) : Prop where
  plain : ∀ x, isPh x = false → σ x = none
  var : ∃ ts a, σ resPh = some (ts, a, true) ∧ LxDot var ts
  args : ∀ n c, args[n]? = some c → ∃ ts a b, σ (argPh n) = some (ts, a, b) ∧ Lx c ts

theorem fill_plain {σ : Fill} (hσ : ∀ x, isPh x = false → σ x = none) : ∀ {ts : List Tok}, ts.all plainTok = true →
    fill σ ts = ts
  | [], _ => rfl
  | t :: ts, h => by
    simp only [List.all_cons, Bool.and_eq_true] at h
    rw [fill_cons, fill_plain hσ h.2]
    cases t with
    | name x =>
      have h1 : isPh x = false := by simpa [plainTok] using h.1
      simp [fillTok, hσ x h1]
    | _ => rfl

theorem fill_append (σ : Fill) (a b : List Tok) : fill σ (a ++ b) = fill σ a ++ fill σ b := by
  simp [fill, List.flatMap_append]

theorem okFollow_ends {dot : Bool} {l : List TPart} {var s : List Char} {args : List (List Char)}
    (h : okFollow dot l = true) (hr : render var args l = some s) :
    wEnd s = true ∧ (dot = false → s.head? ≠ some '.') := by
  cases l with
  | nil => cases hr; exact ⟨rfl, by simp⟩
  | cons p l =>
    cases p with
    | ch c =>
      simp only [render, Option.map_eq_some_iff] at hr
      obtain ⟨t, _, rfl⟩ := hr
      simp only [okFollow, Bool.and_eq_true, Bool.or_eq_true] at h
      refine ⟨by simp [wEnd, h.1], ?_⟩
      rintro rfl
      simpa using h.2
    | _ => cases h

/-- The tokens of a line with codes in it. -/
theorem lex_parts {var : List Char} {args : List (List Char)} {σ : Fill} (hσ : Puts var args σ) :
    ∀ (l : List TPart) (st : LexState) (ts : List Tok) (s : List Char), lexParts st l = some ts →
      render var args l = some s → lexFrom st s = some (fill σ ts)
  | [], st, ts, s, h, hr => by
    cases hr
    simp only [lexParts, Option.bind_eq_some_iff] at h
    obtain ⟨us, h1, h2⟩ := h
    split at h2
    · next hp =>
      cases h2
      rw [lexFrom, h1, fill_plain hσ.plain hp]
    · cases h2
  | .ch c :: l, st, ts, s, h, hr => by
    simp only [render, Option.map_eq_some_iff] at hr
    obtain ⟨s', hr, rfl⟩ := hr
    simp only [lexParts, Option.bind_eq_some_iff] at h
    obtain ⟨⟨o, st'⟩, h1, h2⟩ := h
    simp only at h2
    split at h2
    · next hp =>
      simp only [Option.map_eq_some_iff] at h2
      obtain ⟨us, h2, rfl⟩ := h2
      have ih := lex_parts hσ l st' us s' h2 hr
      simp only [lexFrom, h1, ih, Option.map_some, fill_append, fill_plain hσ.plain hp]
    · cases h2
  | .res :: l, st, ts, s, h, hr => by
    simp only [render, Option.map_eq_some_iff] at hr
    obtain ⟨s', hr, rfl⟩ := hr
    simp only [lexParts] at h
    split at h
    · next hp =>
      obtain ⟨rfl, hp⟩ := hp
      simp only [Option.map_eq_some_iff] at h
      obtain ⟨us, h2, rfl⟩ := h
      have ih := lex_parts hσ l .start us s' h2 hr
      obtain ⟨vt, va, hv, hl⟩ := hσ.var
      rw [hl s' (okFollow_ends hp hr).1, ih, fill_cons]
      simp [fillTok, hv]
    · cases h
  | .arg n :: l, st, ts, s, h, hr => by
    simp only [render] at hr
    cases ha : args[n]? with
    | none => rw [ha] at hr; cases hr
    | some c =>
      rw [ha] at hr
      simp only [Option.map_eq_some_iff] at hr
      obtain ⟨s', hr, rfl⟩ := hr
      simp only [lexParts] at h
      split at h
      · next hp =>
        obtain ⟨rfl, hp⟩ := hp
        simp only [Option.map_eq_some_iff] at h
        obtain ⟨us, h2, rfl⟩ := h
        have ih := lex_parts hσ l .start us s' h2 hr
        obtain ⟨vt, va, b, hv, hl⟩ := hσ.args n c ha
        have he := okFollow_ends hp hr
        rw [hl s' he.1 (he.2 rfl), ih, fill_cons]
        simp [fillTok, hv]
      · cases h

/-! ## Lines -/

/-- Indentation of a line and the rest of it. -/
def partIndent : List TPart → Nat × List TPart
  | .ch c :: l => if c = ' ' then let (n, r) := partIndent l; (n + 1, r) else (0, .ch c :: l)
  | l => (0, l)

/-- A line does not begin with a code of the user. -/
def firstOk : List TPart → Bool
  | .ch c :: _ => c != ' '
  | .res :: _ => true
  | _ => false

/-- A line with its indentation, in tokens. -/
def lineParts (l : List TPart) : Option Line :=
  let (n, r) := partIndent l
  if firstOk r then (lexParts .start r).map (n, ·) else none

theorem render_indent {var : List Char} {args : List (List Char)} : ∀ (l : List TPart) (s : List Char),
    render var args l = some s → ∃ s', render var args (partIndent l).2 = some s' ∧
      s = List.replicate (partIndent l).1 ' ' ++ s'
  | [], s, h => ⟨s, h, rfl⟩
  | .ch c :: l, s, h => by
    simp only [partIndent]
    split
    · next hc =>
      subst hc
      simp only [render, Option.map_eq_some_iff] at h
      obtain ⟨s1, h, rfl⟩ := h
      obtain ⟨s', h1, h2⟩ := render_indent l s1 h
      exact ⟨s', h1, by rw [h2]; simp [List.replicate_succ]⟩
    · exact ⟨s, h, rfl⟩
  | .res :: l, s, h => ⟨s, h, rfl⟩
  | .arg n :: l, s, h => ⟨s, h, rfl⟩

/-- The variable does not begin with a space. -/
def startsOk : List Char → Bool
  | [] => false
  | c :: _ => c != ' '

theorem has_line {var : List Char} {args : List (List Char)} {σ : Fill} (hσ : Puts var args σ)
    (hv : startsOk var = true) {l : List TPart} {k : Nat} {ts : List Tok} (h : lineParts l = some (k, ts))
    {s : List Char} (hr : render var args l = some s) : Has s [(k, fill σ ts)] := by
  simp only [lineParts] at h
  split at h
  · next hf =>
    simp only [Option.map_eq_some_iff, Prod.mk.injEq] at h
    obtain ⟨us, h1, rfl, rfl⟩ := h
    obtain ⟨s', h2, rfl⟩ := render_indent l s hr
    have h3 := lex_parts hσ _ _ _ _ h1 h2
    have h4 : ∃ c t, s' = c :: t ∧ c ≠ ' ' := by
      revert hf h2
      cases (partIndent l).2 with
      | nil => intro hf; cases hf
      | cons p r =>
        intro hf h2
        cases p with
        | ch c =>
          simp only [render, Option.map_eq_some_iff] at h2
          obtain ⟨t, _, rfl⟩ := h2
          exact ⟨c, t, rfl, by simpa [firstOk] using hf⟩
        | res =>
          simp only [render, Option.map_eq_some_iff] at h2
          obtain ⟨t, _, rfl⟩ := h2
          cases var with
          | nil => cases hv
          | cons c var => exact ⟨c, var ++ t, rfl, by simpa [startsOk] using hv⟩
        | arg n => cases hf
    obtain ⟨c, t, rfl, hc⟩ := h4
    exact Has.line _ hc h3
  · cases h

/-- The lines of a template. -/
def linesParts : List (List TPart) → Option (List Line)
  | [] => some []
  | p :: ps => (lineParts p).bind fun l => (linesParts ps).map (l :: ·)

/-- Codes in the lines. -/
def fillLines (σ : Fill) (ls : List Line) : List Line := ls.map fun l => (l.1, fill σ l.2)

theorem has_lines {var : List Char} {args : List (List Char)} {σ : Fill} (hσ : Puts var args σ)
    (hv : startsOk var = true) : ∀ (ps : List (List TPart)) (ls : List Line) (ss : List (List Char)),
      linesParts ps = some ls → renderAll var args ps = some ss → ps ≠ [] → Has (joinLines ss) (fillLines σ ls)
  | [], _, _, _, _, h => absurd rfl h
  | [p], ls, ss, h, hr, _ => by
    simp only [linesParts, Option.map_some, Option.bind_eq_some_iff, Option.some.injEq] at h
    obtain ⟨l, h1, rfl⟩ := h
    simp only [renderAll, Option.map_some, Option.bind_eq_some_iff, Option.some.injEq] at hr
    obtain ⟨s, h2, rfl⟩ := hr
    exact has_line hσ hv (k := l.1) (ts := l.2) h1 h2
  | p :: q :: ps, ls, ss, h, hr, _ => by
    rw [linesParts] at h
    simp only [Option.bind_eq_some_iff, Option.map_eq_some_iff] at h
    obtain ⟨l, h1, ms, h2, rfl⟩ := h
    rw [renderAll] at hr
    simp only [Option.bind_eq_some_iff, Option.map_eq_some_iff] at hr
    obtain ⟨s, h3, ts, h4, rfl⟩ := hr
    have ih := has_lines hσ hv (q :: ps) ms ts h2 h4 (by simp)
    have h5 := has_line hσ hv (k := l.1) (ts := l.2) h1 h3
    have : joinLines (s :: ts) = s ++ '\n' :: joinLines ts := by
      cases ts with
      | nil =>
        simp only [renderAll, Option.bind_eq_some_iff, Option.map_eq_some_iff] at h4
        obtain ⟨_, _, _, _, h⟩ := h4
        cases h
      | cons t ts => exact joinLines_cons _ _ _
    rw [this]
    exact h5.append ih

/-! ## Statements -/

mutual

/-- Codes in a statement. -/
def fillTree (σ : Fill) : Tree → Tree
  | .leaf ts => .leaf (fill σ ts)
  | .block h b => .block (fill σ h) (fillTrees σ b)

/-- Codes in statements. -/
def fillTrees (σ : Fill) : List Tree → List Tree
  | [] => []
  | t :: ts => fillTree σ t :: fillTrees σ ts

end

mutual

theorem fillTree_flat (σ : Fill) (n : Nat) : ∀ t : Tree, (fillTree σ t).flat n = fillLines σ (t.flat n)
  | .leaf ts => rfl
  | .block h b => by
    have := fillTrees_flat σ (n + 4) b
    simp only [fillTree, Tree.flat, fillLines, List.map_cons, fill_append]
    rw [this]
    rfl

theorem fillTrees_flat (σ : Fill) (n : Nat) : ∀ ts : List Tree, flatAll n (fillTrees σ ts) = fillLines σ (flatAll n ts)
  | [] => rfl
  | t :: ts => by
    simp only [fillTrees, flatAll, fillLines, List.map_append]
    rw [fillTree_flat σ n t, fillTrees_flat σ n ts]
    rfl

end

mutual

/-- Trees in the place of names in a statement. -/
def fillS (σ : Fill) : Stmt → Stmt
  | .assign ts e => .assign (fillAs σ ts) (fillA σ e)
  | .pairs t e k v it => .pairs (fillA σ t) (fillA σ e) k v (fillA σ it)
  | .aug o t e => .aug o (fillA σ t) (fillA σ e)
  | .expr e => .expr (fillA σ e)
  | .ret e => .ret (fillA σ e)
  | .yield_ e => .yield_ (fillA σ e)
  | .del e => .del (fillA σ e)
  | .brk => .brk
  | .pass => .pass
  | .global ns => .global ns
  | .ite c a b => .ite (fillA σ c) (fillSs σ a) (fillSs σ b)
  | .for_ v it b => .for_ v (fillA σ it) (fillSs σ b)
  | .try_ b e h => .try_ (fillSs σ b) (fillA σ e) (fillSs σ h)
  | .def_ f ps ks b => .def_ f ps ks (fillSs σ b)
  | .class_ c b => .class_ c (fillSs σ b)

/-- The same for several statements. -/
def fillSs (σ : Fill) : List Stmt → List Stmt
  | [] => []
  | s :: ss => fillS σ s :: fillSs σ ss

end

/-- Steps for the parser, enough for the templates. -/
def depth : Nat := 60

/-- A whole expression of a template. -/
def ckExpr (σ : Fill) (ts : List Tok) : Option Ast :=
  if safe σ ts then
    match parse depth .expr ts with
    | some (a, []) => some a
    | _ => none
  else none

/-- What is assigned to: the variable, or no code. -/
def ckTarget (σ : Fill) : Ast → Bool
  | .name x => x = resPh || (σ x).isNone && !isConstName x
  | .attr _ _ => true
  | .sub _ _ => true
  | _ => false

/-- After `=`. -/
def ckAssign (σ : Fill) : Nat → List Tok → Option (List Ast × Ast)
  | 0, _ => none
  | k + 1, ts =>
    match parse depth .primary ts with
    | some (t, .assign :: us) =>
      if safe σ ts && pre σ .primary ts && ckTarget σ t then (ckAssign σ k us).map fun (as, e) => (t :: as, e) else none
    | _ => (ckExpr σ ts).map ([], ·)

/-- A simple statement. -/
def ckLeaf (σ : Fill) (ts : List Tok) : Option Stmt :=
  if ts = [.kw "pass"] then some .pass
  else if noKw ts && safe σ ts && pre σ .primary ts then
    match parse depth .primary ts with
    | some (t, .assign :: us) => if ckTarget σ t then (ckAssign σ 9 us).map fun (as, e) => .assign (t :: as) e else none
    | some (t, .plus :: .assign :: us) => if ckTarget σ t then (ckExpr σ us).map (.aug .add t) else none
    | some (t, []) => some (.expr t)
    | _ => none
  else none

mutual

/-- The statements of a template. -/
def ckAll (σ : Fill) : Nat → List Tree → Option (List Stmt)
  | 0, _ => none
  | _ + 1, [] => some []
  | n + 1, .leaf ts :: rest => (ckLeaf σ ts).bind fun s => (ckAll σ n rest).map (s :: ·)
  | n + 1, .block (.if_ :: ts) body :: rest =>
    (ckExpr σ ts).bind fun c => (ckAll σ n body).bind fun a => (ckElse σ n rest).bind fun (b, rest) =>
      (ckAll σ n rest).map (.ite c a b :: ·)
  | _ + 1, _ => none

/-- `elif` and `else` clauses. -/
def ckElse (σ : Fill) : Nat → List Tree → Option (List Stmt × List Tree)
  | 0, _ => none
  | n + 1, .block [.else_] body :: rest => (ckAll σ n body).map (·, rest)
  | n + 1, .block (.kw "elif" :: ts) body :: rest =>
    (ckExpr σ ts).bind fun c => (ckAll σ n body).bind fun a => (ckElse σ n rest).map fun (b, rest) => ([.ite c a b], rest)
  | _ + 1, ts => some ([], ts)

end

section
variable {σ : Fill} (hσ : Fills σ) (ht : ∀ ts a b, σ resPh = some (ts, a, b) → isTarget a = true)
include hσ

theorem ckExpr_ex {ts : List Tok} {a : Ast} (h : ckExpr σ ts = some a) : Ex (fill σ ts) (fillA σ a) := by
  simp only [ckExpr] at h
  split at h
  · next hs =>
    cases hp : parse depth .expr ts with
    | none => rw [hp] at h; cases h
    | some r =>
      obtain ⟨b, r⟩ := r
      rw [hp] at h
      cases r with
      | cons t r => cases h
      | nil =>
        cases h
        exact (parse_fill hσ depth .expr ts a [] hs rfl hp).ev
  · cases h

include ht

omit hσ in
theorem ckTarget_target {t : Ast} (h : ckTarget σ t = true) : isTarget (fillA σ t) = true := by
  cases t with
  | name x =>
    simp only [ckTarget, Bool.or_eq_true, decide_eq_true_eq, Bool.and_eq_true, Option.isNone_iff_eq_none,
      Bool.not_eq_true'] at h
    rcases h with rfl | ⟨h1, h2⟩
    · simp only [fillA]
      cases hx : σ resPh with
      | none =>
        have : isConstName resPh = false := by decide +kernel
        simp [isTarget, this]
      | some p => exact ht p.1 p.2.1 p.2.2 hx
    · simp [fillA, h1, isTarget, h2]
  | attr a s => rfl
  | sub a b => rfl
  | _ => cases h

theorem ckAssign_read : ∀ (k : Nat) (ts : List Tok) (as : List Ast) (e : Ast), ckAssign σ k ts = some (as, e) →
    ∃ n0, ∀ n, n0 ≤ n → ∀ k', k ≤ k' → ∀ acc, readAssign n k' acc (fill σ ts) = some (.assign (acc ++ fillAs σ as) (fillA σ e))
  | 0, _, _, _, h => by cases h
  | k + 1, ts, as, e, h => by
    have key : (ckExpr σ ts).map (([] : List Ast), ·) = some (as, e) →
        ∃ n0, ∀ n, n0 ≤ n → ∀ k', k + 1 ≤ k' → ∀ acc,
          readAssign n k' acc (fill σ ts) = some (.assign (acc ++ fillAs σ as) (fillA σ e)) := by
      intro h
      simp only [Option.map_eq_some_iff, Prod.mk.injEq] at h
      obtain ⟨a, h1, rfl, rfl⟩ := h
      obtain ⟨n0, h2⟩ := readAssign_of (ckExpr_ex hσ h1) Targets.nil
      refine ⟨n0, fun n hn k' hk acc => ?_⟩
      have := h2 n hn k' (by simp; omega) acc
      simpa [targetToks, fillAs] using this
    simp only [ckAssign] at h
    cases hp : parse depth .primary ts with
    | none => rw [hp] at h; exact key h
    | some r =>
      obtain ⟨t, r⟩ := r
      rw [hp] at h
      cases r with
      | nil => exact key h
      | cons x us =>
        cases x <;> first | exact key h | skip
        simp only at h
        split at h
        · next hc =>
          simp only [Bool.and_eq_true] at hc
          simp only [Option.map_eq_some_iff, Prod.mk.injEq] at h
          obtain ⟨⟨as', e'⟩, h1, rfl, rfl⟩ := h
          have hs := parse_fill hσ depth .primary ts t (.assign :: us) hc.1.1 hc.1.2 hp
          obtain ⟨n1, h2⟩ := hs.ev
          obtain ⟨n2, h3⟩ := ckAssign_read k us as' e' h1
          refine ⟨n1 + n2, fun n hn k' hk acc => ?_⟩
          obtain ⟨k', rfl⟩ : ∃ j, k' = j + 1 := ⟨k' - 1, by omega⟩
          have h4 := h2 n (by omega)
          simp only [fillM, fill_cons, fillTok, List.cons_append, List.nil_append] at h4
          simp only [readAssign, h4, ckTarget_target ht hc.2, if_true]
          rw [h3 n (by omega) k' (by omega)]
          simp [fillAs]
        · cases h

omit ht in
theorem fill_noKw {ts : List Tok} (h : noKw ts = true) : noKw (fill σ ts) = true := by
  cases ts with
  | nil => rfl
  | cons t ts =>
    rw [fill_cons]
    cases t with
    | name x =>
      simp only [fillTok]
      cases hx : σ x with
      | none => rfl
      | some p =>
        obtain ⟨us, a, b⟩ := p
        obtain ⟨u, l, rfl, hu⟩ := (hσ x us a b hx).1.start
        cases u <;> first | rfl | cases hu
    | kw s => cases h
    | _ => rfl

theorem ckLeaf_simple {ts : List Tok} {s : Stmt} (h : ckLeaf σ ts = some s) : SimpleToks (fill σ ts) (fillS σ s) := by
  simp only [ckLeaf] at h
  split at h
  · next hts =>
    subst hts
    cases h
    exact simple_pass
  split at h
  · next hc =>
    simp only [Bool.and_eq_true] at hc
    obtain ⟨⟨hk, hs⟩, hpre⟩ := hc
    cases hp : parse depth .primary ts with
    | none => rw [hp] at h; cases h
    | some r =>
      obtain ⟨t, r⟩ := r
      have hst := parse_fill hσ depth .primary ts t r hs hpre hp
      rw [hp] at h
      cases r with
      | nil =>
        cases h
        have h1 : Ev .primary (fill σ ts) (fillA σ t, []) := hst.ev
        have h2 : Ex (fill σ ts) (fillA σ t) := ev_expr_primary h1 (by decide)
        obtain ⟨n1, h1⟩ := h1
        obtain ⟨n2, h2⟩ := h2.toks
        refine ⟨n1 + n2, fun n hn => ?_⟩
        rw [readSimple_noKw (fill_noKw hσ hk), h1 n (by omega)]
        simp only [h2 n (by omega), Option.map_some, fillS]
      | cons x us =>
        cases x with
        | assign =>
          simp only at h
          split at h
          · next hc =>
            simp only [Option.map_eq_some_iff] at h
            obtain ⟨⟨as, e⟩, h1, rfl⟩ := h
            obtain ⟨n1, h2⟩ := hst.ev
            obtain ⟨n2, h3⟩ := ckAssign_read hσ ht 9 us as e h1
            refine ⟨n1 + n2 + 9, fun n hn => ?_⟩
            have h4 := h2 n (by omega)
            simp only [fillM, fill_cons, fillTok, List.cons_append, List.nil_append] at h4
            rw [readSimple_noKw (fill_noKw hσ hk), h4]
            simp only [ckTarget_target ht hc, if_true, readValue]
            rw [h3 n (by omega) n (by omega)]
            simp [fillS, fillAs]
          · cases h
        | plus =>
          cases us with
          | nil => cases h
          | cons y us =>
            cases y with
            | assign =>
              simp only at h
              split at h
              · next hc =>
                simp only [Option.map_eq_some_iff] at h
                obtain ⟨e, h1, rfl⟩ := h
                obtain ⟨n1, h2⟩ := hst.ev
                obtain ⟨n2, h3⟩ := (ckExpr_ex hσ h1).toks
                refine ⟨n1 + n2, fun n hn => ?_⟩
                have h4 := h2 n (by omega)
                simp only [fillM, fill_cons, fillTok, List.cons_append, List.nil_append] at h4
                rw [readSimple_noKw (fill_noKw hσ hk), h4]
                simp only [ckTarget_target ht hc, if_true, h3 n (by omega), Option.map_some, fillS]
              · cases h
            | _ => cases h
        | _ => cases h
  · cases h

/-- No clause of an `if` statement comes first. -/
theorem fill_noElse : ∀ (n : Nat) (ts : List Tree) (b : List Stmt), ckAll σ n ts = some b →
    noElse (fillTrees σ ts) = true
  | 0, _, _, h => by cases h
  | n + 1, ts, b, h => by
    cases ts with
    | nil => rfl
    | cons t ts =>
      cases t with
      | leaf us => rfl
      | block hd body =>
        cases hd with
        | nil => cases h
        | cons x hd =>
          cases x <;> first | cases h | rfl

mutual

theorem ckAll_seg : ∀ (n : Nat) (ts : List Tree) (b : List Stmt), ckAll σ n ts = some b →
    Seg (fillTrees σ ts) (fillSs σ b)
  | 0, _, _, h => by cases h
  | n + 1, ts, b, h => by
    cases ts with
    | nil => cases h; exact .nil
    | cons t ts =>
      cases t with
      | leaf us =>
        simp only [ckAll, Option.bind_eq_some_iff, Option.map_eq_some_iff] at h
        obtain ⟨s, h1, b', h2, rfl⟩ := h
        have := (Seg.leaf (ckLeaf_simple hσ ht h1)).append (ckAll_seg n ts b' h2) (fill_noElse hσ ht n ts b' h2)
        simpa [fillTrees, fillTree, fillSs] using this
      | block hd body =>
        cases hd with
        | nil => cases h
        | cons x hd =>
          cases x <;> first | cases h; done | skip
          simp only [ckAll, Option.bind_eq_some_iff, Option.map_eq_some_iff] at h
          obtain ⟨c, h1, a, h2, ⟨e, rest⟩, h3, b', h4, rfl⟩ := h
          have hb := (ckAll_seg n body a h2).stmts
          have hrest := ckAll_seg n rest b' h4
          have hn := fill_noElse hσ ht n rest b' h4
          intro more s hm hs
          have h5 := hrest more s hm hs
          have h6 := ckElse_of n ts e rest h3 more (noElse_append hn hm)
          have := StmtsOf.ite (ckExpr_ex hσ h1) hb h6 h5
          simpa [fillTrees, fillTree, fillSs, fillS, fill_cons, fillTok] using this

theorem ckElse_of : ∀ (n : Nat) (ts : List Tree) (b : List Stmt) (rest : List Tree), ckElse σ n ts = some (b, rest) →
    ∀ more : List Tree, noElse (fillTrees σ rest ++ more) = true →
      ElseOf (fillTrees σ ts ++ more) (fillSs σ b) (fillTrees σ rest ++ more)
  | 0, _, _, _, h => by cases h
  | n + 1, ts, b, rest, h => by
    intro more hm
    have hd : ckElse σ (n + 1) ts = some ([], ts) → ElseOf (fillTrees σ ts ++ more) (fillSs σ b) (fillTrees σ rest ++ more) := by
      intro h'
      rw [h] at h'
      cases h'
      exact ElseOf.none hm
    cases ts with
    | nil => exact hd rfl
    | cons t ts =>
      cases t with
      | leaf us => exact hd rfl
      | block hd' body =>
        by_cases he : hd' = [.else_]
        · subst he
          simp only [ckElse, Option.map_eq_some_iff, Prod.mk.injEq] at h
          obtain ⟨a, h1, rfl, rfl⟩ := h
          have := ElseOf.else_ (rest := fillTrees σ ts ++ more) (ckAll_seg n body a h1).stmts
          simpa [fillTrees, fillTree, fill_cons, fillTok, fill] using this
        · by_cases hl : ∃ us, hd' = .kw "elif" :: us
          · obtain ⟨us, rfl⟩ := hl
            simp only [ckElse, Option.bind_eq_some_iff, Option.map_eq_some_iff, Prod.mk.injEq] at h
            obtain ⟨c, h1, a, h2, ⟨b', r'⟩, h3, rfl, rfl⟩ := h
            have := ElseOf.elif (ckExpr_ex hσ h1) (ckAll_seg n body a h2).stmts (ckElse_of n ts b' r' h3 more hm)
            simpa [fillTrees, fillTree, fillSs, fillS, fill_cons, fillTok] using this
          · refine hd ?_
            rw [ckElse]
            · intro body' rest' e
              cases e
              exact he rfl
            · intro us body' rest' e
              cases e
              exact hl ⟨us, rfl⟩

end

end

end Verif.Stmt
