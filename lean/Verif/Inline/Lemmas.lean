import Verif.Inline.Spec

/-!
# Inline: lexing and parsing of generated texts
-/

set_option autoImplicit false

namespace Verif.Inline

open Verif.Text

theorem fill_plain (as : Args Operand) : ∀ {ts : List Tok}, ts.all plainTok = true → fill (fillOf as) ts = ts
  | [], _ => rfl
  | t :: ts, h => by
    simp only [List.all_cons, Bool.and_eq_true] at h
    rw [fill_cons, fill_plain as h.2]
    cases t with
    | name x =>
      have h1 : x.toList.head? ≠ some '{' := by simpa [plainTok] using h.1
      have : fillOf as x = none := by
        unfold fillOf
        split
        · next k hk => rw [hk] at h1; exact absurd rfl h1
        · rfl
      simp [fillTok, this]
    | _ => rfl

theorem fill_append (σ : Fill) (a b : List Tok) : fill σ (a ++ b) = fill σ a ++ fill σ b := by
  simp [fill, List.flatMap_append]

theorem fillOf_ph (as : Args Operand) (k : List Char) :
    fillOf as (ph k) = (as.get k).map fun o => (o.toks, o.tree, o.prim) := by
  simp [fillOf, ph]

theorem get_mem {α : Type} {as : Args α} {k : List Char} {o : α} (h : as.get k = some o) : o ∈ as.all := by
  unfold Args.get at h
  unfold Args.all
  split at h
  · exact List.mem_append_left _ (List.mem_of_getElem? h)
  · simp only [Option.map_eq_some_iff] at h
    obtain ⟨p, hp, rfl⟩ := h
    exact List.mem_append_right _ (List.mem_map_of_mem (List.mem_of_find?_eq_some hp))

theorem get_codes (as : Args Operand) (k : List Char) : as.codes.get k = (as.get k).map (·.code) := by
  unfold Args.get Args.codes
  split
  · simp
  · simp only [List.find?_map, Option.map_map]
    rfl

theorem fills_of {as : Args Operand} (h : ∀ o ∈ as.all, o.Ok) : Fills (fillOf as) := by
  intro x ts a b hx
  unfold fillOf at hx
  split at hx
  · simp only [Option.map_eq_some_iff, Prod.mk.injEq] at hx
    obtain ⟨o, ho, rfl, rfl, rfl⟩ := hx
    have := h o (get_mem ho)
    exact ⟨this.rd, this.pr⟩
  · cases hx

/-! ## First characters of codes -/

theorem map_append_inj {x : Option (List Tok)} {us vs : List Tok} (h : x.map (us ++ ·) = some vs) :
    ∃ ws, vs = us ++ ws := by
  cases x with
  | none => cases h
  | some w => exact ⟨w, by cases h; rfl⟩

/-- After a first half of an operator comes the operator. -/
theorem op_first {a : Char} {cs : List Char} {ts : List Tok} (h : lexFrom (.op a) cs = some ts) :
    ∃ t us, ts = t :: us ∧ ((half a = some t) ∨ ∃ c, double a c = some t) := by
  cases cs with
  | nil =>
    simp only [lexFrom, final, Option.map_eq_some_iff] at h
    obtain ⟨t, ht, rfl⟩ := h
    exact ⟨t, [], rfl, .inl ht⟩
  | cons c cs =>
    simp only [lexFrom, step] at h
    cases hd : double a c with
    | some t =>
      rw [hd] at h
      simp only [Option.map_eq_some_iff] at h
      obtain ⟨us, _, rfl⟩ := h
      exact ⟨t, us, rfl, .inr ⟨c, hd⟩⟩
    | none =>
      rw [hd] at h
      cases hh : half a with
      | none => rw [hh] at h; cases h
      | some t =>
        rw [hh] at h
        cases hb : begin_ c with
        | none => rw [hb] at h; cases h
        | some p =>
          obtain ⟨us, st⟩ := p
          rw [hb] at h
          simp only [Option.map_some, Option.map_eq_some_iff] at h
          obtain ⟨ws, _, rfl⟩ := h
          exact ⟨t, us ++ ws, rfl, .inl rfl⟩

theorem double_first {a c : Char} (h : double a c ≠ none) : c = '/' ∨ c = '=' := by
  unfold double at h
  split at h <;> simp_all

theorem op_start {a : Char} (h : a = '/' ∨ a = '=') {t : Tok} (ht : half a = some t ∨ ∃ c, double a c = some t) :
    startTok t = false := by
  rcases h with rfl | rfl
  · rcases ht with ht | ⟨c, ht⟩
    · cases ht; rfl
    · unfold double at ht
      split at ht <;> first | (cases ht; rfl) | cases ht
  · rcases ht with ht | ⟨c, ht⟩
    · cases ht; rfl
    · unfold double at ht
      split at ht <;> first | (cases ht; rfl) | cases ht

/-- A code does not begin like the second half of an operator. -/
theorem code_first {i : Bool} {s : String} {ts : List Tok} (h : Reads i s ts) (hs : ∃ t l, ts = t :: l ∧ startTok t = true) :
    ∃ c l, s.toList = c :: l ∧ c ≠ '/' ∧ c ≠ '=' := by
  obtain ⟨t, l, rfl, ht⟩ := hs
  have h0 := h [] rfl (by simp)
  rw [List.append_nil] at h0
  have h1 : lexFrom .start s.toList = some (t :: l) := by
    rw [h0]; simp [lexFrom, final]
  cases hc : s.toList with
  | nil => rw [hc] at h1; cases h1
  | cons c cs =>
    refine ⟨c, cs, rfl, ?_⟩
    rw [hc] at h1
    have key : ¬ (c = '/' ∨ c = '=') := by
      intro hh
      have hb : step .start c = some ([], .op c) := by rcases hh with rfl | rfl <;> rfl
      simp only [lexFrom, hb] at h1
      rw [map_nil_append] at h1
      obtain ⟨t', us, e, h2⟩ := op_first h1
      cases e
      rw [op_start hh h2] at ht
      cases ht
    exact ⟨fun e => key (.inl e), fun e => key (.inr e)⟩

/-- A code after a first half of an operator. -/
theorem lex_op_code {a : Char} {t : Tok} (ha : half a = some t) {c : Char} {l : List Char} (h1 : c ≠ '/') (h2 : c ≠ '=') :
    lexFrom (.op a) (c :: l) = (lexFrom .start (c :: l)).map (t :: ·) := by
  have hd : double a c = none := by
    cases h : double a c with
    | none => rfl
    | some u => exact (double_first (by rw [h]; simp)).elim (absurd · h1) (absurd · h2)
  simp only [lexFrom, step, hd, ha]
  cases begin_ c with
  | none => rfl
  | some p =>
    simp only [Option.map_some, Option.map_map, List.cons_append]
    rfl

/-! ## The text -/

theorem follow_ends {dot : Bool} {l : List TPart} {as : Args String} {s : List Char} (h : follow dot l = true)
    (hr : put as l = some s) (cs : List Char) :
    wEnd (s ++ ')' :: cs) = true ∧ (dot = false → (s ++ ')' :: cs).head? ≠ some '.') := by
  cases l with
  | nil => cases hr; exact ⟨rfl, by simp⟩
  | cons p l =>
    cases p with
    | ch c =>
      simp only [put, Option.map_eq_some_iff] at hr
      obtain ⟨t, _, rfl⟩ := hr
      simp only [follow, Bool.and_eq_true, Bool.or_eq_true] at h
      refine ⟨by simp [wEnd, h.1], ?_⟩
      rintro rfl
      simpa using h.2
    | code k => cases h

theorem lex_text {as : Args Operand} (hok : ∀ o ∈ as.all, o.Ok) (cs : List Char) :
    ∀ (l : List TPart) (st : LexState) (ts : List Tok) (s : List Char), lexT (dotOf as) st l = some ts →
      put as.codes l = some s →
      lexFrom st (s ++ ')' :: cs) = (lexFrom .start cs).map (fill (fillOf as) ts ++ ·)
  | [], st, ts, s, h, hr => by
    cases hr
    simp only [lexT, Option.bind_eq_some_iff] at h
    obtain ⟨⟨o, st'⟩, h1, h2⟩ := h
    simp only at h2
    split at h2
    · next hp =>
      obtain ⟨rfl, hp⟩ := hp
      cases h2
      simp only [List.nil_append, lexFrom, h1, fill_plain as hp]
    · cases h2
  | .ch c :: l, st, ts, s, h, hr => by
    simp only [put, Option.map_eq_some_iff] at hr
    obtain ⟨s', hr, rfl⟩ := hr
    simp only [lexT, Option.bind_eq_some_iff] at h
    obtain ⟨⟨o, st'⟩, h1, h2⟩ := h
    simp only at h2
    split at h2
    · next hp =>
      simp only [Option.map_eq_some_iff] at h2
      obtain ⟨us, h2, rfl⟩ := h2
      have ih := lex_text hok cs l st' us s' h2 hr
      simp only [List.cons_append, lexFrom, h1, ih, fill_append, fill_plain as hp, map_append_append]
    · cases h2
  | .code k :: l, st, ts, s, h, hr => by
    simp only [put, get_codes, Option.bind_eq_some_iff, Option.map_eq_some_iff] at hr
    obtain ⟨_, ⟨o, ho, rfl⟩, s', hr, rfl⟩ := hr
    have hk := hok o (get_mem ho)
    have hdot : dotOf as k = o.prim := by simp [dotOf, ho]
    simp only [lexT] at h
    split at h
    · next hf =>
      rw [hdot] at hf
      have he := follow_ends hf hr cs
      have hrd : lexFrom .start (o.code.toList ++ (s' ++ ')' :: cs)) =
          (lexFrom .start (s' ++ ')' :: cs)).map (o.toks ++ ·) :=
        hk.reads _ he.1 (fun hi => he.2 (by simpa using hi))
      have hphf : ∀ us : List Tok, fill (fillOf as) (.name (ph k) :: us) = o.toks ++ fill (fillOf as) us := by
        intro us
        rw [fill_cons]
        simp [fillTok, fillOf_ph, ho]
      split at h
      · simp only [Option.map_eq_some_iff] at h
        obtain ⟨us, h2, rfl⟩ := h
        have ih := lex_text hok cs l .start us s' h2 hr
        rw [List.append_assoc, hrd, ih, hphf, map_append_append]
      · next a =>
        simp only [Option.bind_eq_some_iff, Option.map_eq_some_iff] at h
        obtain ⟨t, ht, us, h2, rfl⟩ := h
        have ih := lex_text hok cs l .start us s' h2 hr
        obtain ⟨c, cl, hc, hc1, hc2⟩ := code_first hk.reads hk.rd.start
        have e1 : lexFrom (.op a) (o.code.toList ++ (s' ++ ')' :: cs)) =
            (lexFrom .start (o.code.toList ++ (s' ++ ')' :: cs))).map (t :: ·) := by
          rw [hc, List.cons_append]
          exact lex_op_code ht hc1 hc2
        have e2 : fill (fillOf as) (t :: .name (ph k) :: us) = t :: (o.toks ++ fill (fillOf as) us) := by
          rw [fill_cons, hphf]
          unfold half at ht
          split at ht <;> first | (cases ht; rfl) | cases ht
        rw [List.append_assoc, e1, hrd, ih, e2]
        cases lexFrom .start cs <;> simp
      · cases h
    · cases h

/-! ## Templates do not depend on the codes -/

/-- Only the presence of an argument. -/
def bare : Operand := ⟨"", [], .name "", false⟩

/-- Arguments without their codes. -/
def Args.bare (as : Args Operand) : Args Operand := ⟨as.args.map fun _ => Inline.bare, as.kwargs.map fun p => (p.1, Inline.bare)⟩

theorem get_bare (as : Args Operand) (k : List Char) : as.bare.get k = (as.get k).map fun _ => bare := by
  unfold Args.get Args.bare
  split
  · simp
  · simp only [List.find?_map, Option.map_map]
    rfl

theorem fillOf_bare (as : Args Operand) (x : String) : fillOf as.bare x = (fillOf as x).map fun _ => ([], .name "", false) := by
  unfold fillOf
  split
  · rw [get_bare, Option.map_map, Option.map_map]; rfl
  · rfl

theorem isNone_bare (as : Args Operand) (x : String) : (fillOf as.bare x).isNone = (fillOf as x).isNone := by
  rw [fillOf_bare]
  cases fillOf as x <;> rfl

theorem noPh_bare (as : Args Operand) (ts : List Tok) : noPh (fillOf as.bare) ts = noPh (fillOf as) ts := by
  cases ts with
  | nil => rfl
  | cons t ts => cases t <;> first | rfl | exact isNone_bare as _

theorem noPhKw_bare (as : Args Operand) (ts : List Tok) : noPhKw (fillOf as.bare) ts = noPhKw (fillOf as) ts := by
  match ts with
  | [] => rfl
  | [t] => cases t <;> rfl
  | t :: u :: ts => cases t <;> first | rfl | (cases u <;> first | rfl | exact isNone_bare as _)

theorem okNext_bare (as : Args Operand) {t : Tok} {ts : List Tok} (h : okNext (fillOf as.bare) t ts = true) :
    okNext (fillOf as) t ts = true := by
  cases t <;> simp only [okNext, noPh_bare, noPhKw_bare, Bool.and_eq_true] at h ⊢ <;> first | exact h | skip
  refine ⟨h.1, ?_⟩
  have h2 := h.2
  rw [fillOf_bare] at h2
  revert h2
  cases fillOf as _ with
  | none => exact fun _ => rfl
  | some p =>
    obtain ⟨a, b, q⟩ := p
    intro h2
    cases q
    · exact h2
    · rfl

theorem safe_bare (as : Args Operand) : ∀ {ts : List Tok}, safe (fillOf as.bare) ts = true → safe (fillOf as) ts = true
  | [], _ => rfl
  | t :: ts, h => by
    simp only [safe, Bool.and_eq_true] at h ⊢
    exact ⟨okNext_bare as h.1, safe_bare as h.2⟩

theorem follow_bare {d d' : Bool} (hd : d = true → d' = true) {l : List TPart} (h : follow d l = true) : follow d' l = true := by
  cases l with
  | nil => rfl
  | cons p l =>
    cases p with
    | ch c =>
      simp only [follow, Bool.and_eq_true, Bool.or_eq_true] at h ⊢
      exact ⟨h.1, h.2.imp hd id⟩
    | code k => cases h

theorem dotOf_bare (as : Args Operand) (k : List Char) (h : dotOf as.bare k = true) : dotOf as k = true := by
  unfold dotOf at h ⊢
  rw [get_bare] at h
  cases hg : as.get k with
  | none => rfl
  | some o => rw [hg] at h; cases h

theorem lexT_bare {d d' : List Char → Bool} (hd : ∀ k, d k = true → d' k = true) : ∀ {l : List TPart} {st : LexState} {ts : List Tok},
    lexT d st l = some ts → lexT d' st l = some ts
  | [], st, ts, h => h
  | .ch c :: l, st, ts, h => by
    simp only [lexT, Option.bind_eq_some_iff] at h ⊢
    obtain ⟨⟨o, st'⟩, h1, h2⟩ := h
    refine ⟨_, h1, ?_⟩
    simp only at h2 ⊢
    split at h2
    · next hp =>
      simp only [Option.map_eq_some_iff] at h2
      obtain ⟨us, h2, rfl⟩ := h2
      rw [if_pos hp, lexT_bare hd h2]
      rfl
    · cases h2
  | .code k :: l, st, ts, h => by
    simp only [lexT] at h ⊢
    split at h
    · next hf =>
      rw [if_pos (follow_bare (hd k) hf)]
      split at h
      · simp only [Option.map_eq_some_iff] at h
        obtain ⟨us, h2, rfl⟩ := h
        simp only [lexT_bare hd h2, Option.map_some]
      · simp only [Option.bind_eq_some_iff, Option.map_eq_some_iff] at h
        obtain ⟨t, ht, us, h2, rfl⟩ := h
        simp only [ht, Option.bind_some, lexT_bare hd h2, Option.map_some]
      · cases h
    · cases h

/-- A template which is read with arguments of any kind. -/
theorem template_bare {code : String} {as : Args Operand} {a : Ast} (h : Template code as.bare a) : Template code as a := by
  obtain ⟨l, ts, n, h1, h2, h3, h4⟩ := h
  exact ⟨l, ts, n, h1, lexT_bare (dotOf_bare as) h2, safe_bare as h3, h4⟩

theorem put_chars (as : Args String) (s : List Char) (l : List TPart) :
    put as (s.map TPart.ch ++ l) = (put as l).map (s ++ ·) := by
  induction s with
  | nil =>
    show put as l = (put as l).map ([] ++ ·)
    cases put as l <;> rfl
  | cons c s ih =>
    simp only [List.map_cons, List.cons_append, put, ih]
    cases put as l <;> simp

end Verif.Inline
