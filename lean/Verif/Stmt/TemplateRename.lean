import Verif.Stmt.TemplateParts
import Verif.Stmt.AggCompile

/-!
# Stmt: renaming the variable in the text of a block

`update_var_agg_data_value` (`/repo/src/convtools/aggregations.py` 586-593) replaces the text of the variable.  If the
codes of the arguments do not contain this text, then the result is the block generated for the new variable.
-/

set_option autoImplicit false

namespace Verif.Stmt

open Verif.Text Verif.Agg

/-! ## `str.replace` -/

theorem dropPrefix_append (old r : List Char) : dropPrefix? old (old ++ r) = some r := by
  induction old with
  | nil => rfl
  | cons a old ih => simp [dropPrefix?, ih]

theorem dropPrefix_some : ∀ {old s r : List Char}, dropPrefix? old s = some r → s = old ++ r
  | [], s, r, h => by simpa [dropPrefix?] using h
  | a :: old, [], r, h => by simp [dropPrefix?] at h
  | a :: old, b :: s, r, h => by
    simp only [dropPrefix?] at h
    split at h
    · next hab => rw [hab, dropPrefix_some h]; rfl
    · cases h

theorem replaceFuel_enough {old : List Char} (ho : old ≠ []) (new : List Char) : ∀ (n m : Nat) (s : List Char),
    s.length ≤ n → s.length ≤ m → replaceFuel n old new s = replaceFuel m old new s
  | 0, 0, s, _, _ => rfl
  | 0, m + 1, s, h, _ => by
    obtain rfl : s = [] := List.eq_nil_of_length_eq_zero (by omega)
    rfl
  | n + 1, 0, s, _, h => by
    obtain rfl : s = [] := List.eq_nil_of_length_eq_zero (by omega)
    rfl
  | n + 1, m + 1, [], _, _ => rfl
  | n + 1, m + 1, c :: s, h, h' => by
    simp only [List.length_cons, Nat.add_le_add_iff_right] at h h'
    simp only [replaceFuel]
    cases hd : dropPrefix? old (c :: s) with
    | none => simp only [replaceFuel_enough ho new n m s h h']
    | some r =>
      have e := congrArg List.length (dropPrefix_some hd)
      have : 0 < old.length := List.length_pos_iff.2 ho
      simp only [List.length_cons, List.length_append] at e
      simp only [replaceFuel_enough ho new n m r (by omega) (by omega)]

section
variable {old new : List Char}

theorem replaceAll_hit (ho : old ≠ []) (r : List Char) :
    replaceAll old new (old ++ r) = new ++ replaceAll old new r := by
  unfold replaceAll
  obtain ⟨a, o, rfl⟩ := List.exists_cons_of_ne_nil ho
  have hd := dropPrefix_append (a :: o) r
  rw [List.cons_append] at hd ⊢
  rw [List.length_cons]
  simp only [replaceFuel, hd]
  rw [replaceFuel_enough ho new _ r.length r (by simp) (Nat.le_refl _)]

theorem replaceAll_miss {c : Char} {s : List Char} (h : dropPrefix? old (c :: s) = none) :
    replaceAll old new (c :: s) = c :: replaceAll old new s := by
  simp only [replaceAll, List.length_cons, replaceFuel, h]

theorem replaceAll_nil : replaceAll old new [] = [] := rfl

/-- Nothing is replaced in a text which does not contain the old one. -/
theorem replaceAll_free : ∀ {s : List Char}, ¬ old <:+: s → replaceAll old new s = s
  | [], _ => rfl
  | c :: s, h => by
    rw [replaceAll_miss, replaceAll_free]
    · rintro ⟨x, y, rfl⟩
      exact h ⟨c :: x, y, by simp⟩
    · cases hd : dropPrefix? old (c :: s) with
      | none => rfl
      | some r => exact (h ⟨[], r, by rw [dropPrefix_some hd]; simp⟩).elim

theorem not_infix_short {s : List Char} (h : s.length < old.length) : ¬ old <:+: s :=
  fun hi => by have := hi.length_le; omega

/-- A character which the old text does not contain separates replacements. -/
theorem replaceAll_sep (ho : old ≠ []) {c : Char} (hc : c ∉ old) (b : List Char) : ∀ (n : Nat) (a : List Char),
    a.length ≤ n → replaceAll old new (a ++ c :: b) = replaceAll old new a ++ c :: replaceAll old new b
  | _, [], _ => by
    rw [List.nil_append, replaceAll_nil, List.nil_append, replaceAll_miss]
    cases hd : dropPrefix? old (c :: b) with
    | none => rfl
    | some r =>
      have := dropPrefix_some hd
      obtain ⟨x, o, rfl⟩ := List.exists_cons_of_ne_nil ho
      simp only [List.cons_append, List.cons.injEq] at this
      exact absurd (by rw [this.1]; simp) hc
  | 0, x :: a, h => by simp at h
  | n + 1, x :: a, h => by
    simp only [List.length_cons, Nat.add_le_add_iff_right] at h
    cases hd : dropPrefix? old (x :: a) with
    | some r =>
      have e := dropPrefix_some hd
      have hl := congrArg List.length e
      have : 0 < old.length := List.length_pos_iff.2 ho
      simp only [List.length_cons, List.length_append] at hl
      rw [e, List.append_assoc, replaceAll_hit ho, replaceAll_hit ho, replaceAll_sep ho hc b n r (by omega),
        List.append_assoc]
    | none =>
      rw [List.cons_append, replaceAll_miss hd, List.cons_append, replaceAll_miss, replaceAll_sep ho hc b n a h]
      cases hd' : dropPrefix? old (x :: (a ++ c :: b)) with
      | none => rfl
      | some r =>
        have e := dropPrefix_some hd'
        rw [← List.cons_append, List.append_eq_append_iff] at e
        rcases e with ⟨t, e1, e2⟩ | ⟨t, e1, e2⟩
        · cases t with
          | nil =>
            rw [List.append_nil] at e1
            have := dropPrefix_append old []
            rw [List.append_nil, e1] at this
            rw [e1] at hd
            rw [this] at hd
            cases hd
          | cons y t =>
            simp only [List.cons_append, List.cons.injEq] at e2
            exact absurd (by rw [e1, ← e2.1]; simp) hc
        · rw [e1, dropPrefix_append] at hd
          cases hd

end

/-! ## Lines of templates -/

/-- Characters which variables do not contain. -/
def isSep (c : Char) : Bool := !idChar c && c != '.'

/-- Only characters, and less than the length of a variable. -/
def shortLit (l : List TPart) : Bool :=
  l.all (fun p => match p with | .ch _ => true | _ => false) && decide (l.length < 12)

/-- What stands between two separating characters: a short text, the variable and a short text, or one argument.  `v`
says which arguments are the variable. -/
def okChunk (v : Nat → Bool) : List TPart → Bool
  | .res :: l => shortLit l
  | .arg n :: l => if v n then shortLit l else l.isEmpty
  | l => shortLit l

/-- All that stands between separating characters; the first list is what has been read since the last one. -/
def runsOk (v : Nat → Bool) : List TPart → List TPart → Bool
  | cur, [] => okChunk v cur
  | cur, .ch c :: l => if isSep c then okChunk v cur && runsOk v [] l else runsOk v (cur ++ [.ch c]) l
  | cur, p :: l => runsOk v (cur ++ [p]) l

/-- The arguments before and after renaming. -/
def Swap (v : Nat → Bool) (old new : List Char) (as bs : List (List Char)) : Prop :=
  ∀ (n : Nat) (a b : List Char), as[n]? = some a → bs[n]? = some b →
    if v n then a = old ∧ b = new else a = b ∧ ¬ old <:+: a

section
variable {v : Nat → Bool} {old new : List Char} {as bs : List (List Char)}

theorem shortLit_render {l : List TPart} (h : shortLit l = true) (var : List Char) (as : List (List Char)) :
    ∃ s, render var as l = some s ∧ s.length = l.length ∧ ∀ (w : List Char) (bs : List (List Char)), render w bs l = some s := by
  simp only [shortLit, Bool.and_eq_true] at h
  replace h := h.1
  induction l with
  | nil => exact ⟨[], rfl, rfl, fun _ _ => rfl⟩
  | cons p l ih =>
    simp only [List.all_cons, Bool.and_eq_true] at h
    obtain ⟨s, h1, h2, h3⟩ := ih h.2
    cases p with
    | ch c => exact ⟨c :: s, by simp [render, h1], by simp [h2], fun w bs => by simp [render, h3]⟩
    | _ => simp at h

theorem shortLit_free {l : List TPart} (h : shortLit l = true) (ho : 12 ≤ old.length) {s t : List Char}
    {w : List Char} (h1 : render w as l = some s) {w' : List Char} (h2 : render w' bs l = some t) :
    s = t ∧ replaceAll old new s = t := by
  obtain ⟨x, e1, e2, e3⟩ := shortLit_render h w as
  rw [h1] at e1
  cases e1
  rw [e3] at h2
  cases h2
  simp only [shortLit, Bool.and_eq_true, decide_eq_true_eq] at h
  exact ⟨rfl, replaceAll_free (not_infix_short (by omega))⟩

theorem chunk_rename (ho : 12 ≤ old.length) (hs : Swap v old new as bs) {l : List TPart} (h : okChunk v l = true)
    {s t : List Char} (h1 : render old as l = some s) (h2 : render new bs l = some t) : replaceAll old new s = t := by
  have hne : old ≠ [] := by
    rintro rfl
    simp at ho
  have hvar : ∀ {l : List TPart} {s t : List Char}, shortLit l = true → (render old as l).map (old ++ ·) = some s →
      (render new bs l).map (new ++ ·) = some t → replaceAll old new s = t := by
    intro l s t h h1 h2
    simp only [Option.map_eq_some_iff] at h1 h2
    obtain ⟨s, h1, rfl⟩ := h1
    obtain ⟨t, h2, rfl⟩ := h2
    rw [replaceAll_hit hne, (shortLit_free h ho h1 h2).2]
  cases l with
  | nil =>
    cases h1
    cases h2
    rfl
  | cons p l =>
    cases p with
    | ch c => exact (shortLit_free h ho h1 h2).2
    | res => exact hvar h h1 h2
    | arg n =>
      simp only [render] at h1 h2
      cases ha : as[n]? with
      | none => rw [ha] at h1; cases h1
      | some a =>
        cases hb : bs[n]? with
        | none => rw [hb] at h2; cases h2
        | some b =>
          rw [ha] at h1
          rw [hb] at h2
          have := hs n a b ha hb
          simp only [okChunk] at h
          simp only at h1 h2
          cases hv : v n with
          | true =>
            rw [hv] at h this
            simp only [if_true] at h this
            obtain ⟨rfl, rfl⟩ := this
            exact hvar h h1 h2
          | false =>
            rw [hv] at h this
            simp only [Bool.false_eq_true, if_false, List.isEmpty_iff] at h this
            subst h
            obtain ⟨rfl, hf⟩ := this
            simp only [render, Option.map_some, List.append_nil, Option.some.injEq] at h1 h2
            subst h1
            subst h2
            exact replaceAll_free hf

/-- Renaming in a line. -/
theorem line_rename (ho : 12 ≤ old.length) (hc : ∀ c ∈ old, isSep c = false) (hs : Swap v old new as bs) :
    ∀ (l cur : List TPart), runsOk v cur l = true → ∀ (s t : List Char), render old as (cur ++ l) = some s →
      render new bs (cur ++ l) = some t → replaceAll old new s = t
  | [], cur, h, s, t, h1, h2 => by
    rw [List.append_nil] at h1 h2
    exact chunk_rename ho hs h h1 h2
  | p :: l, cur, h, s, t, h1, h2 => by
    have hne : old ≠ [] := by
      rintro rfl
      simp at ho
    have next : runsOk v (cur ++ [p]) l = true → replaceAll old new s = t := by
      intro h
      refine line_rename ho hc hs l (cur ++ [p]) h s t ?_ ?_
      · rw [List.append_assoc]; exact h1
      · rw [List.append_assoc]; exact h2
    cases p with
    | ch c =>
      simp only [runsOk] at h
      split at h
      · next hsep =>
        simp only [Bool.and_eq_true] at h
        rw [render_append] at h1 h2
        simp only [Option.bind_eq_some_iff, Option.map_eq_some_iff, render] at h1 h2
        obtain ⟨s1, e1, s2, ⟨s3, e2, rfl⟩, rfl⟩ := h1
        obtain ⟨t1, f1, t2, ⟨t3, f2, rfl⟩, rfl⟩ := h2
        have hnot : c ∉ old := fun hm => by
          rw [hc c hm] at hsep
          cases hsep
        rw [replaceAll_sep hne hnot s3 _ s1 (Nat.le_refl _), chunk_rename ho hs h.1 e1 f1,
          line_rename ho hc hs l [] h.2 s3 t3 e2 f2]
      · exact next h
    | res => exact next h
    | arg n => exact next h

/-- Renaming in the lines of a template. -/
theorem lines_rename (ho : 12 ≤ old.length) (hc : ∀ c ∈ old, isSep c = false) (hs : Swap v old new as bs) :
    ∀ (ps : List (List TPart)), ps.all (runsOk v []) = true → ∀ (xs ys : List (List Char)),
      renderAll old as ps = some xs → renderAll new bs ps = some ys →
      replaceAll old new (joinLines xs) = joinLines ys
  | [], _, xs, ys, h1, h2 => by
    cases h1
    cases h2
    rfl
  | [p], h, xs, ys, h1, h2 => by
    simp only [renderAll, Option.map_some, Option.bind_eq_some_iff, Option.some.injEq] at h1 h2
    obtain ⟨s, h1, rfl⟩ := h1
    obtain ⟨t, h2, rfl⟩ := h2
    simp only [List.all_cons, List.all_nil, Bool.and_true] at h
    exact line_rename ho hc hs p [] h s t h1 h2
  | p :: q :: ps, h, xs, ys, h1, h2 => by
    have hne : old ≠ [] := by
      rintro rfl
      simp at ho
    have e1 : ∀ (w : List Char) (cs : List (List Char)), renderAll w cs (p :: q :: ps) =
        (render w cs p).bind fun a => (renderAll w cs (q :: ps)).map (a :: ·) := fun _ _ => rfl
    rw [e1] at h1 h2
    simp only [Option.bind_eq_some_iff, Option.map_eq_some_iff] at h1 h2
    obtain ⟨s, h1, xs, h3, rfl⟩ := h1
    obtain ⟨t, h2, ys, h4, rfl⟩ := h2
    rw [List.all_cons, Bool.and_eq_true] at h
    have ih := lines_rename ho hc hs (q :: ps) h.2 xs ys h3 h4
    have hxs : ∀ {w : List Char} {cs zs : List (List Char)}, renderAll w cs (q :: ps) = some zs → ∃ z zs', zs = z :: zs' := by
      intro w cs zs hz
      simp only [renderAll, Option.bind_eq_some_iff, Option.map_eq_some_iff] at hz
      obtain ⟨z, _, zs', _, rfl⟩ := hz
      exact ⟨z, zs', rfl⟩
    obtain ⟨x, xs, rfl⟩ := hxs h3
    obtain ⟨y, ys, rfl⟩ := hxs h4
    have hnl : '\n' ∉ old := fun hm => by
      have := hc _ hm
      revert this
      decide
    rw [joinLines_cons, joinLines_cons, replaceAll_sep hne hnl _ _ s (Nat.le_refl _), ih,
      line_rename ho hc hs p [] h.1 s t h1 h2]

end

/-! ## Variables -/

theorem placeText_length (m : Bool) (j : Nat) : 12 ≤ (placeText m j).toList.length := by
  have := List.length_pos_iff.2 (digits_ne j)
  cases m with
  | true =>
    rw [placeText, varAgg_toList]
    simp only [List.length_append, List.length_cons, List.length_nil]
    have e : "agg_data_v".toList.length = 10 := by decide
    omega
  | false =>
    have e0 : (placeText false j).toList = "agg_data_.v".toList ++ (toString j).toList := by
      simp [placeText, varGroup, String.toList_append]
    rw [e0, List.length_append]
    have e : "agg_data_.v".toList.length = 11 := by decide
    omega

theorem placeText_chars (m : Bool) (j : Nat) : ∀ c ∈ (placeText m j).toList, idChar c = true ∨ c = '.' := by
  have hd := digits_all j
  rw [List.all_eq_true] at hd
  intro c hc
  cases m with
  | true =>
    rw [placeText, varAgg_toList] at hc
    simp only [List.mem_append] at hc
    rcases hc with hc | hc | hc
    · left
      have : ∀ c ∈ "agg_data_v".toList, idChar c = true := by decide
      exact this c hc
    · exact .inl (digit_idChar (hd c hc))
    · simp only [List.mem_singleton] at hc
      subst hc
      left
      decide
  | false =>
    have e0 : (placeText false j).toList = "agg_data_.v".toList ++ (toString j).toList := by
      simp [placeText, varGroup, String.toList_append]
    rw [e0, List.mem_append] at hc
    rcases hc with hc | hc
    · have : ∀ c ∈ "agg_data_.v".toList, idChar c = true ∨ c = '.' := by decide
      exact this c hc
    · exact .inl (digit_idChar (hd c hc))

theorem placeText_sep (m : Bool) (j : Nat) : ∀ c ∈ (placeText m j).toList, isSep c = false := by
  intro c hc
  rcases placeText_chars m j c hc with h | rfl
  · simp [isSep, h]
  · rfl

theorem placeText_noBrace (m : Bool) (j : Nat) : noBrace (placeText m j).toList = true := by
  simp only [noBrace, List.all_eq_true]
  intro c hc
  rcases placeText_chars m j c hc with h | rfl
  · by_cases h1 : c = '{'
    · subst h1; revert h; decide
    by_cases h2 : c = '}'
    · subst h2; revert h; decide
    simp [h1, h2]
  · decide

/-! ## Blocks -/

/-- The number of arguments which a list of parts uses. -/
def argsUsed (l : List TPart) (n : Nat) : Bool :=
  l.all fun p =>
    match p with
    | .arg k => decide (k < n)
    | _ => true

theorem render_some {var : List Char} {as : List (List Char)} : ∀ {l : List TPart}, argsUsed l as.length = true →
    ∃ s, render var as l = some s
  | [], _ => ⟨[], rfl⟩
  | p :: l, h => by
    simp only [argsUsed, List.all_cons, Bool.and_eq_true] at h
    obtain ⟨s, hs⟩ := render_some (var := var) (as := as) (l := l) h.2
    cases p with
    | ch c => exact ⟨c :: s, by simp [render, hs]⟩
    | res => exact ⟨var ++ s, by simp [render, hs]⟩
    | arg n =>
      have := h.1
      simp only [decide_eq_true_eq] at this
      exact ⟨as[n] ++ s, by simp [render, hs, List.getElem?_eq_getElem this]⟩

theorem renderAll_some {var : List Char} {as : List (List Char)} : ∀ {ps : List (List TPart)},
    ps.all (argsUsed · as.length) = true → ∃ xs, renderAll var as ps = some xs
  | [], _ => ⟨[], rfl⟩
  | p :: ps, h => by
    simp only [List.all_cons, Bool.and_eq_true] at h
    obtain ⟨s, hs⟩ := render_some (var := var) h.1
    obtain ⟨xs, hx⟩ := renderAll_some (var := var) h.2
    exact ⟨s :: xs, by simp [renderAll, hs, hx]⟩

/-- The template can be formatted with `n` arguments, and renaming works in it.  The first two are about renaming where
argument 0 is not, and is the variable. -/
def tplOk (v : Bool) (n : Nat) (ss : List String) : Bool :=
  match partsAll (if ss.isEmpty then ["pass"] else ss) with
  | some ps => ps.all (runsOk (fun k => v && k == 0) []) && ps.all (argsUsed · n)
  | none => false

theorem format_some {v : Bool} {n : Nat} {ss : List String} (h : tplOk v n ss = true) {var : List Char}
    (hv : noBrace var = true) {as : List (List Char)} (ha : as.length = n) :
    ∃ s, formatStatements var ss as = some s := by
  unfold tplOk at h
  cases hp : partsAll (if ss.isEmpty then ["pass"] else ss) with
  | none => rw [hp] at h; cases h
  | some ps =>
    rw [hp] at h
    simp only [Bool.and_eq_true] at h
    subst ha
    obtain ⟨xs, hx⟩ := renderAll_some (var := var) h.2
    exact ⟨joinLines xs, by rw [formatStatements_eq hv as hp, hx]; rfl⟩

theorem format_rename {v : Bool} {n : Nat} {ss : List String} (h : tplOk v n ss = true) {old new : List Char}
    (ho : 12 ≤ old.length) (hc : ∀ c ∈ old, isSep c = false) (hb : noBrace old = true) (hb' : noBrace new = true)
    {as bs : List (List Char)} (hs : Swap (fun k => v && k == 0) old new as bs) {s t : List Char}
    (h1 : formatStatements old ss as = some s) (h2 : formatStatements new ss bs = some t) : replaceAll old new s = t := by
  unfold tplOk at h
  cases hp : partsAll (if ss.isEmpty then ["pass"] else ss) with
  | none => rw [hp] at h; cases h
  | some ps =>
    rw [hp] at h
    simp only [Bool.and_eq_true] at h
    rw [formatStatements_eq hb as hp, Option.map_eq_some_iff] at h1
    rw [formatStatements_eq hb' bs hp, Option.map_eq_some_iff] at h2
    obtain ⟨xs, h1, rfl⟩ := h1
    obtain ⟨ys, h2, rfl⟩ := h2
    exact lines_rename ho hc hs ps h.1 xs ys h1 h2

/-- The codes of the arguments do not contain the text of the variable. -/
def Codes.Free (c : Codes) (var : String) : Prop :=
  (∀ a ∈ c.args, ¬ var.toList <:+: a.toList) ∧ ∀ a, c.initial = some a → ¬ var.toList <:+: a.toList

/-- The number of arguments of a reducer. -/
def Fn.arity : Fn → Nat
  | .maxRow | .minRow | .dict | .dictArray | .dictArrayDistinct | .dictSum | .dictSumOrNone | .dictMax | .dictMin
  | .dictCount | .dictCountDistinct | .dictFirst | .dictLast => 2
  | _ => 1

theorem reduce_tplOk (f : Fn) (v : Bool) : tplOk v (f.arity + 1) f.template.reduce = true := by
  cases f <;> cases v <;> decide +kernel

theorem first_tplOk (f : Fn) : tplOk false f.arity f.template.first = true := by
  cases f <;> decide +kernel

theorem genBlock_some (f : Fn) {c : Codes} (hc : c.args.length = f.arity) (m : Bool) (i flag : Nat) :
    ∃ b, genBlock f.template c (placeText m i) flag = some b := by
  have hb := placeText_noBrace m i
  obtain ⟨two, h2⟩ := format_some (reduce_tplOk f true) hb
    (as := (placeText m i).toList :: c.args.map String.toList) (by simp [hc])
  have h1 : ∃ init, f.template.genInitial (placeText m i).toList (c.initial.map String.toList) (c.args.map String.toList) = some init := by
    cases hi : c.initial with
    | none => exact format_some (first_tplOk f) hb (by simp [hc])
    | some x => exact format_some (reduce_tplOk f false) hb (by simp [hc])
  obtain ⟨init, h1⟩ := h1
  simp only [genBlock, h1, Template.genTwo, h2, Option.bind_some, Option.map_some]
  exact ⟨_, rfl⟩

theorem swap_same {as : List (List Char)} {old new : List Char} (h : ∀ a ∈ as, ¬ old <:+: a) :
    Swap (fun k => false && k == 0) old new as as := by
  intro n a b ha hb
  rw [ha] at hb
  cases hb
  exact ⟨rfl, h a (List.mem_of_getElem? ha)⟩

/-- Renaming the variable of a block gives the block of the other variable. -/
theorem genBlock_renamed (f : Fn) {c : Codes} (hc : c.args.length = f.arity) (m : Bool) (i j flag : Nat)
    (hf : c.Free (placeText m i)) {b : BlockText} (h : genBlock f.template c (placeText m i) flag = some b) :
    genBlock f.template c (placeText m j) flag = some (renamed m i j b) := by
  by_cases hij : placeText m i = placeText m j
  · rw [renamed, if_neg (by simpa using hij), ← hij]
    exact h
  · rw [renamed, if_pos (by simpa using hij)]
    obtain ⟨b', h'⟩ := genBlock_some f hc m j flag
    rw [h', Option.some.injEq]
    simp only [genBlock, Option.bind_eq_some_iff, Option.map_eq_some_iff] at h h'
    obtain ⟨init, h1, two, h2, rfl⟩ := h
    obtain ⟨init', h1', two', h2', rfl⟩ := h'
    have ho := placeText_length m i
    have hs := placeText_sep m i
    have hb := placeText_noBrace m i
    have hb' := placeText_noBrace m j
    have hfree : ∀ a ∈ c.args.map String.toList, ¬ (placeText m i).toList <:+: a := by
      intro a ha
      rw [List.mem_map] at ha
      obtain ⟨x, hx, rfl⟩ := ha
      exact hf.1 x hx
    have e2 := format_rename (reduce_tplOk f true) ho hs hb hb'
      (as := (placeText m i).toList :: c.args.map String.toList)
      (bs := (placeText m j).toList :: c.args.map String.toList) (by
        intro n a b ha hb
        cases n with
        | zero =>
          simp only [List.getElem?_cons_zero, Option.some.injEq] at ha hb
          exact ⟨ha.symm, hb.symm⟩
        | succ n =>
          simp only [List.getElem?_cons_succ] at ha hb
          rw [ha] at hb
          cases hb
          simp only [Bool.true_and, Nat.add_eq_zero_iff, Nat.one_ne_zero, and_false, beq_iff_eq, if_false]
          exact ⟨trivial, hfree a (List.mem_of_getElem? ha)⟩) h2 h2'
    have e1 : replaceAll (placeText m i).toList (placeText m j).toList init = init' := by
      cases hi : c.initial with
      | none =>
        rw [hi] at h1 h1'
        exact format_rename (first_tplOk f) ho hs hb hb' (swap_same hfree) h1 h1'
      | some x =>
        rw [hi] at h1 h1'
        refine format_rename (reduce_tplOk f false) ho hs hb hb' (swap_same ?_) h1 h1'
        intro a ha
        rcases List.mem_cons.1 ha with rfl | ha
        · exact hf.2 x hi
        · exact hfree a ha
    simp only [rename, e1, e2]

/-- Two reduces of the same expression: the second block gets the variable of the first one. -/
example : (genBlock Fn.dictArray.template ⟨none, ["row_[0]", "row_['agg_data_v1_x']"], none⟩ "agg_data_v2_" 4).map
      (fun b => String.ofList (renamed true 2 0 b).init) =
    some "agg_data_v0_ = _d = defaultdict(list)\n_d[row_[0]].append(row_['agg_data_v1_x'])" := by
  decide +kernel

/-- The hypothesis is needed: the text of the variable inside a constant is replaced as well. -/
example : (genBlock Fn.sum.template ⟨none, ["row_['agg_data_v2_']"], none⟩ "agg_data_v2_" 4).map
      (fun b => String.ofList (renamed true 2 1 b).init) =
    some "agg_data_v1_ = (row_['agg_data_v1_'] or 0)" := by
  decide +kernel

end Verif.Stmt
