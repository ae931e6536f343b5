import Verif.Stmt.TemplateLink

/-!
# Stmt: reduces with the same text

`code_hash` (`/repo/src/convtools/aggregations.py` 643-648) is the text of a block without the text of its variable.  For
built-in reducers in `group_by` it tells reduces apart.  Nothing here is code of the repository.
-/

set_option autoImplicit false

namespace Verif.Stmt

open Verif.Text Verif.Agg Verif.Reducers

/-! ## Lines of a text -/

theorem joinLines_ne {l : List Char} {ls : List (List Char)} (h : ls ≠ []) : joinLines (l :: ls) = l ++ '\n' :: joinLines ls := by
  cases ls with
  | nil => exact absurd rfl h
  | cons m ls => exact joinLines_cons _ _ _

theorem splitNl_join : ∀ {ls : List (List Char)}, ls ≠ [] → splitNl (joinLines ls) = ls.flatMap splitNl
  | [], h => absurd rfl h
  | [l], _ => by simp [joinLines]
  | l :: m :: ls, _ => by
    rw [joinLines_cons, splitNl_append, splitNl_join (ls := m :: ls) (by simp)]
    rfl

theorem splitNl_join_lines {ls : List (List Char)} (h : ls ≠ []) (hn : ∀ l ∈ ls, '\n' ∉ l) :
    splitNl (joinLines ls) = ls := by
  rw [splitNl_join h]
  clear h
  induction ls with
  | nil => rfl
  | cons l ls ih =>
    rw [List.flatMap_cons, splitNl_line (hn l (by simp)), ih (fun x hx => hn x (List.mem_cons_of_mem _ hx))]
    rfl

theorem joinLines_split : ∀ s : List Char, joinLines (splitNl s) = s
  | [] => rfl
  | c :: s => by
    have ih := joinLines_split s
    simp only [splitNl]
    split
    · next hc =>
      rw [joinLines_ne (splitNl_ne_nil s), ih, hc]
      rfl
    · cases h : splitNl s with
      | nil => exact absurd h (splitNl_ne_nil s)
      | cons l ls =>
        rw [h] at ih
        cases ls with
        | nil =>
          simp only [joinLines] at ih ⊢
          rw [ih]
        | cons m ls =>
          rw [joinLines_cons] at ih
          simp only
          rw [joinLines_cons, List.cons_append, ih]

theorem splitLines_line : ∀ {l : List Char}, '\n' ∉ l → l ≠ [] → splitLines l = [l]
  | [], _, h => absurd rfl h
  | c :: l, h, _ => by
    simp only [List.mem_cons, not_or] at h
    simp only [splitLines, if_neg (Ne.symm h.1)]
    cases l with
    | nil => rfl
    | cons d l => rw [splitLines_line h.2 (by simp)]

theorem splitLines_append : ∀ {l s : List Char}, '\n' ∉ l → splitLines (l ++ '\n' :: s) = l :: splitLines s
  | [], s, _ => by simp [splitLines]
  | c :: l, s, h => by
    simp only [List.mem_cons, not_or] at h
    rw [List.cons_append, splitLines, if_neg (Ne.symm h.1), splitLines_append h.2]

theorem splitLines_join : ∀ {ls : List (List Char)}, (∀ l ∈ ls, '\n' ∉ l) → (∀ l ∈ ls, l ≠ []) →
    splitLines (joinLines ls) = ls
  | [], _, _ => rfl
  | [l], h, h' => by rw [joinLines, splitLines_line (h l (by simp)) (h' l (by simp))]
  | l :: m :: ls, h, h' => by
    rw [joinLines_cons, splitLines_append (h l (by simp)),
      splitLines_join (fun x hx => h x (List.mem_cons_of_mem _ hx)) (fun x hx => h' x (List.mem_cons_of_mem _ hx))]

/-- Spaces before a line. -/
def pad (n : Nat) (l : List Char) : List Char := List.replicate n ' ' ++ l

theorem pad_noNl {n : Nat} {l : List Char} (h : '\n' ∉ l) : '\n' ∉ pad n l := by
  simp only [pad, List.mem_append, not_or]
  exact ⟨fun hm => absurd (List.eq_of_mem_replicate hm) (by decide), h⟩

theorem pad_inj {n : Nat} {a b : List Char} (h : pad n a = pad n b) : a = b := List.append_cancel_left h

theorem pad_ne {n : Nat} (h : 0 < n) (l : List Char) : pad n l ≠ [] := by
  cases n with
  | zero => omega
  | succ n => simp [pad, List.replicate_succ]

theorem map_pad_inj {n : Nat} : ∀ {as bs : List (List Char)}, as.map (pad n) = bs.map (pad n) → as = bs
  | [], [], _ => rfl
  | [], _ :: _, h => by simp at h
  | _ :: _, [], h => by simp at h
  | a :: as, b :: bs, h => by
    simp only [List.map_cons, List.cons.injEq] at h
    rw [pad_inj h.1, map_pad_inj h.2]

theorem splitNl_indent {k : Nat} {ls : List (List Char)} (hne : ls ≠ []) (h : ∀ l ∈ ls, '\n' ∉ l) (h' : ∀ l ∈ ls, l ≠ []) :
    splitNl (indent k (joinLines ls)) = ls.map (pad (4 * k)) := by
  unfold indent
  rw [splitLines_join h h']
  refine splitNl_join_lines (by simpa using hne) ?_
  intro l hl
  obtain ⟨m, hm, rfl⟩ := List.mem_map.1 hl
  exact pad_noNl (h m hm)

/-! ## Removing the variable -/

section
variable {old new : List Char}

theorem replaceAll_pad (ho : old ≠ []) (hs : ' ' ∉ old) (l : List Char) : ∀ n : Nat,
    replaceAll old new (pad n l) = pad n (replaceAll old new l)
  | 0 => rfl
  | n + 1 => by
    have ih := replaceAll_pad ho hs l n
    have := replaceAll_sep (new := new) ho hs (pad n l) 0 [] (by simp)
    simp only [List.nil_append, replaceAll_nil] at this
    simp only [pad, List.replicate_succ, List.cons_append] at this ih ⊢
    rw [this, ih]

theorem replaceAll_join (ho : old ≠ []) (hs : '\n' ∉ old) : ∀ {ls : List (List Char)},
    replaceAll old new (joinLines ls) = joinLines (ls.map (replaceAll old new))
  | [] => rfl
  | [l] => rfl
  | l :: m :: ls => by
    have ih := replaceAll_join ho hs (ls := m :: ls)
    rw [joinLines_cons, replaceAll_sep ho hs _ _ _ (Nat.le_refl _), ih]
    simp only [List.map_cons]
    rw [joinLines_cons]

end

section
variable {v : Nat → Bool} {old new : List Char} {as bs : List (List Char)}

/-- Renaming in each line of a template. -/
theorem each_rename (ho : 12 ≤ old.length) (hc : ∀ c ∈ old, isSep c = false) (hs : Swap v old new as bs) :
    ∀ (ps : List (List TPart)), ps.all (runsOk v []) = true → ∀ (xs ys : List (List Char)),
      renderAll old as ps = some xs → renderAll new bs ps = some ys → xs.map (replaceAll old new) = ys
  | [], _, xs, ys, h1, h2 => by
    cases h1
    cases h2
    rfl
  | p :: ps, h, xs, ys, h1, h2 => by
    simp only [renderAll, Option.bind_eq_some_iff, Option.map_eq_some_iff] at h1 h2
    obtain ⟨s, h1, xs, h3, rfl⟩ := h1
    obtain ⟨t, h2, ys, h4, rfl⟩ := h2
    rw [List.all_cons, Bool.and_eq_true] at h
    rw [List.map_cons, line_rename ho hc hs p [] h.1 s t h1 h2, each_rename ho hc hs ps h.2 xs ys h3 h4]

end

/-! ## Tokens of the lines -/

/-- A token of a statement of a template without its variable: a token, the expression, or the additional argument. -/
inductive HTok
  | tok (t : Tok)
  | x
  | y
  deriving DecidableEq

/-- The name which stands for the variable, where argument 0 is the variable if `two`. -/
def HTok.ofName (two : Bool) (n : String) : List HTok :=
  if n = resPh then []
  else if two then
    if n = argPh 0 then [] else if n = argPh 1 then [.x] else if n = argPh 2 then [.y] else [.tok (.name n)]
  else if n = argPh 0 then [.x] else if n = argPh 1 then [.y] else [.tok (.name n)]

/-- A token of a template without its variable. -/
def HTok.ofTok (two : Bool) : Tok → List HTok
  | .name n => HTok.ofName two n
  | t => [.tok t]

/-- The tokens of the arguments in their places. -/
def HTok.put (xt yt : List Tok) : HTok → List Tok
  | .tok t => [t]
  | .x => xt
  | .y => yt

/-- The tokens of a line. -/
def putH (xt yt : List Tok) (l : List HTok) : List Tok := l.flatMap (HTok.put xt yt)

/-- What the names in a template stand for, without the variable. -/
def hashFill (two : Bool) (xt yt : List Tok) (xa ya : Ast) : Fill :=
  codeFill ([], .num 0) (if two then [([], .num 0, true), (xt, xa, false), (yt, ya, false)]
    else [(xt, xa, false), (yt, ya, false)])

theorem fillTok_hash (two : Bool) (xt yt : List Tok) (xa ya : Ast) (t : Tok)
    (h : two = false → t ≠ .name (argPh 2)) :
    fillTok (hashFill two xt yt xa ya) t = putH xt yt (HTok.ofTok two t) := by
  cases t with
  | name n =>
    simp only [fillTok, hashFill, codeFill, HTok.ofTok, HTok.ofName]
    by_cases h1 : n = resPh
    · simp [h1, putH]
    · cases two with
      | true =>
        by_cases h2 : n = argPh 0
        · simp [h1, h2, putH]
        by_cases h3 : n = argPh 1
        · subst h3
          simp [h1, h2, putH, HTok.put]
        by_cases h4 : n = argPh 2
        · subst h4
          simp [h1, h2, h3, putH, HTok.put]
        simp [h1, h2, h3, h4, putH, HTok.put]
      | false =>
        by_cases h2 : n = argPh 0
        · subst h2
          simp [h1, putH, HTok.put]
        by_cases h3 : n = argPh 1
        · subst h3
          simp [h1, h2, putH, HTok.put]
        by_cases h4 : n = argPh 2
        · exact absurd (by rw [h4]) (h rfl)
        simp [h1, h2, h3, h4, putH, HTok.put]
  | _ => simp [fillTok, HTok.ofTok, putH, HTok.put]

theorem putH_append (xt yt : List Tok) (a b : List HTok) : putH xt yt (a ++ b) = putH xt yt a ++ putH xt yt b := by
  simp [putH, List.flatMap_append]

/-- No third argument. -/
def noThird (two : Bool) (ts : List Tok) : Bool := two || ts.all fun t => t ≠ .name (argPh 2)

theorem fill_hash (two : Bool) (xt yt : List Tok) (xa ya : Ast) : ∀ {ts : List Tok}, noThird two ts = true →
    fill (hashFill two xt yt xa ya) ts = putH xt yt (ts.flatMap (HTok.ofTok two))
  | [], _ => rfl
  | t :: ts, h => by
    have h1 : two = false → t ≠ .name (argPh 2) := by
      rintro rfl
      simp only [noThird, Bool.false_or, List.all_cons, Bool.and_eq_true, decide_eq_true_eq] at h
      exact h.1
    have h2 : noThird two ts = true := by
      cases two with
      | true => rfl
      | false =>
        simp only [noThird, Bool.false_or, List.all_cons, Bool.and_eq_true] at h ⊢
        exact h.2
    rw [fill_cons, List.flatMap_cons, putH_append, fill_hash two xt yt xa ya h2, fillTok_hash two xt yt xa ya t h1]

/-- The lines of a template in tokens. -/
def lexPartsAll : List (List TPart) → Option (List (List Tok))
  | [] => some []
  | p :: ps => (lexParts .start p).bind fun l => (lexPartsAll ps).map (l :: ·)

theorem lex_partsAll {var : List Char} {args : List (List Char)} {σ : Fill} (hσ : Puts var args σ) :
    ∀ {ps : List (List TPart)} {tss : List (List Tok)} {ss : List (List Char)}, lexPartsAll ps = some tss →
      renderAll var args ps = some ss → ss.map (lexFrom .start) = tss.map (fun ts => some (fill σ ts))
  | [], _, _, h, hr => by
    cases h
    cases hr
    rfl
  | p :: ps, tss, ss, h, hr => by
    simp only [lexPartsAll, Option.bind_eq_some_iff, Option.map_eq_some_iff] at h
    obtain ⟨l, h1, tss, h2, rfl⟩ := h
    simp only [renderAll, Option.bind_eq_some_iff, Option.map_eq_some_iff] at hr
    obtain ⟨s, h3, ss, h4, rfl⟩ := hr
    rw [List.map_cons, List.map_cons, lex_parts hσ p _ _ _ h1 h3, lex_partsAll hσ h2 h4]

/-- The lines of a template: all of them have a token of their own, and nothing else is used but two arguments. -/
def hashLines (two : Bool) (ss : List String) : Option (List (List HTok)) :=
  (partsAll (if ss.isEmpty then ["pass"] else ss)).bind fun ps => (lexPartsAll ps).bind fun tss =>
    if tss.all (fun ts => ts.any plainTok && noThird two ts) && !tss.isEmpty then
      some (tss.map (List.flatMap (HTok.ofTok two)))
    else none

/-- The lines which start, without the variable. -/
def Fn.firstH (f : Fn) : List (List HTok) := (hashLines false f.template.first).getD []

/-- The lines which combine, without the variable. -/
def Fn.reduceH (f : Fn) : List (List HTok) := (hashLines true f.template.reduce).getD []

theorem first_hashLines (f : Fn) : hashLines false f.template.first = some f.firstH := by
  cases f <;> decide +kernel

theorem reduce_hashLines (f : Fn) : hashLines true f.template.reduce = some f.reduceH := by
  cases f <;> decide +kernel

/-! ## The text of a block without its variable -/

/-- The lines of the text of a block without its variable, from its condition and the lines of its statements. -/
def hashRaw : Option (List Char) → List (List Char) → List (List Char) → List (List Char)
  | none, I, T =>
    [] :: pad 8 "if  is _none:".toList :: (I.map (pad 12) ++ [] :: pad 8 "else:".toList :: (T.map (pad 12) ++ [[]]))
  | some c, I, T =>
    [] :: pad 8 ("if ".toList ++ c ++ ":".toList) :: pad 12 "if  is _none:".toList ::
      (I.map (pad 16) ++ [] :: pad 12 "else:".toList :: (T.map (pad 16) ++ [[]]))

section
variable {old : List Char}

theorem replace_noneLine (ho : 12 ≤ old.length) (hc : ∀ c ∈ old, isSep c = false) (n : Nat) :
    replaceAll old [] (pad n ("if ".toList ++ old ++ " is _none:".toList)) = pad n "if  is _none:".toList := by
  have hne : old ≠ [] := by rintro rfl; simp at ho
  have hsp : ' ' ∉ old := fun hm => by have := hc _ hm; revert this; decide
  rw [replaceAll_pad hne hsp]
  congr 1
  have e : "if ".toList ++ old ++ " is _none:".toList = "if".toList ++ ' ' :: (old ++ " is _none:".toList) := by simp
  have e2 : " is _none:".toList.length = 10 := by decide
  rw [e, replaceAll_sep hne hsp _ _ _ (Nat.le_refl _), replaceAll_hit hne,
    replaceAll_free (s := "if".toList) (not_infix_short (by simp; omega)),
    replaceAll_free (not_infix_short (by rw [e2]; omega))]
  decide

theorem replace_elseLine (ho : 12 ≤ old.length) (hc : ∀ c ∈ old, isSep c = false) (n : Nat) :
    replaceAll old [] (pad n "else:".toList) = pad n "else:".toList := by
  have hne : old ≠ [] := by rintro rfl; simp at ho
  have hsp : ' ' ∉ old := fun hm => by have := hc _ hm; revert this; decide
  have e2 : "else:".toList.length = 5 := by decide
  rw [replaceAll_pad hne hsp, replaceAll_free (not_infix_short (by rw [e2]; omega))]

theorem replace_condLine (ho : 12 ≤ old.length) (hc : ∀ c ∈ old, isSep c = false) (n : Nat) {c : List Char}
    (hf : ¬ old <:+: c) :
    replaceAll old [] (pad n ("if ".toList ++ c ++ ":".toList)) = pad n ("if ".toList ++ c ++ ":".toList) := by
  have hne : old ≠ [] := by rintro rfl; simp at ho
  have hsp : ' ' ∉ old := fun hm => by have := hc _ hm; revert this; decide
  have hco : ':' ∉ old := fun hm => by have := hc _ hm; revert this; decide
  rw [replaceAll_pad hne hsp]
  congr 1
  have e : "if ".toList ++ c ++ ":".toList = "if".toList ++ ' ' :: (c ++ ':' :: []) := by simp
  rw [e, replaceAll_sep hne hsp _ _ _ (Nat.le_refl _), replaceAll_sep hne hco _ _ _ (Nat.le_refl _), replaceAll_free hf,
    replaceAll_nil, replaceAll_free (not_infix_short (by simp; omega))]

theorem replace_lines (ho : 12 ≤ old.length) (hc : ∀ c ∈ old, isSep c = false) (n : Nat) (xs : List (List Char)) :
    (xs.map (pad n)).map (replaceAll old []) = (xs.map (replaceAll old [])).map (pad n) := by
  have hne : old ≠ [] := by rintro rfl; simp at ho
  have hsp : ' ' ∉ old := fun hm => by have := hc _ hm; revert this; decide
  simp only [List.map_map]
  apply List.map_congr_left
  intro x _
  exact replaceAll_pad hne hsp x n

theorem toCode_split {b : BlockText} (hfl : b.flag = 0) {xs ys : List (List Char)} (hi : b.init = joinLines xs)
    (ht : b.two = joinLines ys) (hx : xs ≠ []) (hy : ys ≠ []) (hxn : ∀ l ∈ xs, '\n' ∉ l ∧ l ≠ [])
    (hyn : ∀ l ∈ ys, '\n' ∉ l ∧ l ≠ []) (hv : '\n' ∉ b.var) (hcn : ∀ c, b.cond = some c → '\n' ∉ c) :
    splitNl (toCode b) =
      match b.cond with
      | none =>
        [] :: pad 8 ("if ".toList ++ b.var ++ " is _none:".toList) :: (xs.map (pad 12) ++ [] :: pad 8 "else:".toList ::
          (ys.map (pad 12) ++ [[]]))
      | some c =>
        [] :: pad 8 ("if ".toList ++ c ++ ":".toList) :: pad 12 ("if ".toList ++ b.var ++ " is _none:".toList) ::
          (xs.map (pad 16) ++ [] :: pad 12 "else:".toList :: (ys.map (pad 16) ++ [[]])) := by
  have hxi : ∀ k, splitNl (indent k b.init) = xs.map (pad (4 * k)) := fun k => by
    rw [hi]
    exact splitNl_indent hx (fun l hl => (hxn l hl).1) (fun l hl => (hxn l hl).2)
  have hyi : ∀ k, splitNl (indent k b.two) = ys.map (pad (4 * k)) := fun k => by
    rw [ht]
    exact splitNl_indent hy (fun l hl => (hyn l hl).1) (fun l hl => (hyn l hl).2)
  have hck : ∀ p, checksumCode p b = [] := fun p => by rw [checksumCode, if_pos hfl]
  have h8 : ∀ l r : List Char, "        if ".toList ++ l ++ r = pad 8 ("if ".toList ++ l ++ r) := fun l r => by
    have : "        if ".toList = pad 8 "if ".toList := by decide
    rw [this]
    simp [pad]
  have h12 : ∀ l r : List Char, "            if ".toList ++ l ++ r = pad 12 ("if ".toList ++ l ++ r) := fun l r => by
    have : "            if ".toList = pad 12 "if ".toList := by decide
    rw [this]
    simp [pad]
  have e8 : "        else:".toList = pad 8 "else:".toList := by decide
  have e12 : "            else:".toList = pad 12 "else:".toList := by decide
  have hnl : splitNl [] = [[]] := rfl
  have hel : ∀ n, splitNl (pad n "else:".toList) = [pad n "else:".toList] := fun n =>
    splitNl_line (pad_noNl (by decide))
  have hno : ∀ n, splitNl (pad n ("if ".toList ++ b.var ++ " is _none:".toList)) =
      [pad n ("if ".toList ++ b.var ++ " is _none:".toList)] := fun n => by
    refine splitNl_line (pad_noNl ?_)
    simp only [List.mem_append, not_or]
    exact ⟨⟨by decide, hv⟩, by decide⟩
  unfold toCode
  cases hb : b.cond with
  | none =>
    simp only [hck]
    rw [splitNl_join (by simp)]
    simp only [List.flatMap_cons, List.flatMap_nil, hxi, hyi, hnl, h8, e8, hel, hno]
    simp
  | some c =>
    have hcl : splitNl (pad 8 ("if ".toList ++ c ++ ":".toList)) = [pad 8 ("if ".toList ++ c ++ ":".toList)] := by
      refine splitNl_line (pad_noNl ?_)
      simp only [List.mem_append, not_or]
      exact ⟨⟨by decide, hcn c hb⟩, by decide⟩
    simp only [hck]
    rw [splitNl_join (by simp)]
    simp only [List.flatMap_cons, List.flatMap_nil, hxi, hyi, hnl, h8, h12, e12, hel, hno, hcl]
    simp

/-- The lines of the text by which blocks are compared. -/
theorem hash_split {b : BlockText} (ho : 12 ≤ b.var.length) (hc : ∀ c ∈ b.var, isSep c = false) (hfl : b.flag = 0)
    {xs ys : List (List Char)} (hi : b.init = joinLines xs)
    (ht : b.two = joinLines ys) (hx : xs ≠ []) (hy : ys ≠ []) (hxn : ∀ l ∈ xs, '\n' ∉ l ∧ l ≠ [])
    (hyn : ∀ l ∈ ys, '\n' ∉ l ∧ l ≠ []) (hcn : ∀ c, b.cond = some c → '\n' ∉ c ∧ ¬ b.var <:+: c)
    {I T : List (List Char)} (hI : xs.map (replaceAll b.var []) = I) (hT : ys.map (replaceAll b.var []) = T)
    (hIn : ∀ l ∈ I, '\n' ∉ l) (hTn : ∀ l ∈ T, '\n' ∉ l) :
    splitNl (codeHash b) = hashRaw b.cond I T := by
  have hne : b.var ≠ [] := by
    intro h
    rw [h] at ho
    simp at ho
  have hnl : '\n' ∉ b.var := fun hm => by have := hc _ hm; revert this; decide
  have h1 := toCode_split hfl hi ht hx hy hxn hyn hnl (fun c h => (hcn c h).1)
  have h2 : codeHash b = replaceAll b.var [] (joinLines (splitNl (toCode b))) := by
    rw [joinLines_split]
    simp [codeHash, hfl]
  rw [h2, replaceAll_join hne hnl, h1]
  cases hb : b.cond with
  | none =>
    simp only [List.map_cons, List.map_append, List.map_nil, replaceAll_nil, replace_noneLine ho hc,
      replace_elseLine ho hc, replace_lines ho hc, hI, hT]
    refine splitNl_join_lines (by simp) ?_
    simp only [List.mem_cons, List.mem_append, List.mem_map, List.not_mem_nil, or_false]
    rintro l (rfl | rfl | ⟨m, hm, rfl⟩ | rfl | rfl | ⟨m, hm, rfl⟩ | rfl)
    · simp
    · exact pad_noNl (by decide)
    · exact pad_noNl (hIn m hm)
    · simp
    · exact pad_noNl (by decide)
    · exact pad_noNl (hTn m hm)
    · simp
  | some c =>
    simp only [List.map_cons, List.map_append, List.map_nil, replaceAll_nil, replace_noneLine ho hc,
      replace_elseLine ho hc, replace_condLine ho hc _ (hcn c hb).2, replace_lines ho hc, hI, hT]
    refine splitNl_join_lines (by simp) ?_
    simp only [List.mem_cons, List.mem_append, List.mem_map, List.not_mem_nil, or_false]
    rintro l (rfl | rfl | rfl | ⟨m, hm, rfl⟩ | rfl | rfl | ⟨m, hm, rfl⟩ | rfl)
    · simp
    · refine pad_noNl ?_
      simp only [List.mem_append, not_or]
      exact ⟨⟨by decide, (hcn c hb).1⟩, by decide⟩
    · exact pad_noNl (by decide)
    · exact pad_noNl (hIn m hm)
    · simp
    · exact pad_noNl (by decide)
    · exact pad_noNl (hTn m hm)
    · simp

end

theorem until_empty {n : Nat} (h : 0 < n) {R R' : List (List Char)} : ∀ {I I' : List (List Char)},
    I.map (pad n) ++ [] :: R = I'.map (pad n) ++ [] :: R' → I = I' ∧ R = R'
  | [], [], e => ⟨rfl, by simpa using e⟩
  | [], i :: I', e => by
    simp only [List.map_nil, List.nil_append, List.map_cons, List.cons_append, List.cons.injEq] at e
    exact absurd e.1.symm (pad_ne h i)
  | i :: I, [], e => by
    simp only [List.map_nil, List.nil_append, List.map_cons, List.cons_append, List.cons.injEq] at e
    exact absurd e.1 (pad_ne h i)
  | i :: I, i' :: I', e => by
    simp only [List.map_cons, List.cons_append, List.cons.injEq] at e
    obtain ⟨rfl, h2⟩ := until_empty h e.2
    exact ⟨by rw [pad_inj e.1], h2⟩

/-- The lines determine the condition and the statements, or one of the blocks has a condition and the other one begins
with the test of a variable. -/
theorem hashRaw_inj {c c' : Option (List Char)} {I I' T T' : List (List Char)} (hI : I ≠ []) (hI' : I' ≠ [])
    (h : hashRaw c I T = hashRaw c' I' T') :
    (c = c' ∧ I = I' ∧ T = T') ∨ I.head? = some "if  is _none:".toList ∨ I'.head? = some "if  is _none:".toList := by
  have fin : ∀ {n : Nat}, 0 < n → ∀ {d : List Char} {I I' T T' : List (List Char)},
      I.map (pad n) ++ [] :: d :: (T.map (pad n) ++ [[]]) = I'.map (pad n) ++ [] :: d :: (T'.map (pad n) ++ [[]]) →
      I = I' ∧ T = T' := by
    intro n hn d I I' T T' e
    obtain ⟨h1, h2⟩ := until_empty hn e
    simp only [List.cons.injEq, true_and] at h2
    exact ⟨h1, (until_empty hn h2).1⟩
  cases c with
  | none =>
    cases c' with
    | none =>
      simp only [hashRaw, List.cons.injEq, true_and] at h
      exact .inl ⟨rfl, fin (by decide) h⟩
    | some d =>
      obtain ⟨i, I, rfl⟩ := List.exists_cons_of_ne_nil hI
      simp only [hashRaw, List.map_cons, List.cons_append, List.cons.injEq, true_and] at h
      exact .inr (.inl (by rw [List.head?_cons, pad_inj h.2.1]))
  | some c =>
    cases c' with
    | none =>
      obtain ⟨i, I, rfl⟩ := List.exists_cons_of_ne_nil hI'
      simp only [hashRaw, List.map_cons, List.cons_append, List.cons.injEq, true_and] at h
      exact .inr (.inr (by rw [List.head?_cons, pad_inj h.2.1]))
    | some d =>
      simp only [hashRaw, List.cons.injEq, true_and] at h
      have h1 := pad_inj h.1
      rw [List.append_assoc, List.append_assoc] at h1
      have h2 := List.append_cancel_right (List.append_cancel_left h1)
      exact .inl ⟨by rw [h2], fin (by decide) h.2⟩

end Verif.Stmt
