import Verif.Text.Subst

/-!
# Text: codes in the place of names, and the parser
-/

set_option autoImplicit false

namespace Verif.Text

/-- What is read stays the same with codes in the place of names. -/
structure Stays (σ : Fill) (m : Mode) (ts : List Tok) (a : Ast) (rest : List Tok) : Prop where
  ev : Ev (fillM σ m) (fill σ ts) (fillA σ a, fill σ rest)
  safe : safe σ rest = true
  noPh : noPh σ rest = true

section
variable {σ : Fill} (hσ : Fills σ) {rec : P}
  (IH : ∀ m ts a rest, safe σ ts = true → pre σ m ts = true → rec m ts = some (a, rest) → Stays σ m ts a rest)

include IH in
theorem good_expr {ts : List Tok} {a : Ast} {rest : List Tok} (hs : safe σ ts = true)
    (h : parseStep rec .expr ts = some (a, rest)) : Stays σ .expr ts a rest := by
  simp only [parseStep] at h
  cases h1 : rec .or ts with
  | none => rw [h1] at h; cases h
  | some r =>
    obtain ⟨t, us⟩ := r
    have g1 := IH .or ts t us hs rfl h1
    rw [h1] at h
    simp only [Option.bind_some] at h
    split at h
    · next vs =>
      have s1 := safe_tail g1.safe
      cases h2 : rec .or vs with
      | none => rw [h2] at h; cases h
      | some r =>
        obtain ⟨c, ws⟩ := r
        have g2 := IH .or vs c ws s1 rfl h2
        rw [h2] at h
        simp only [Option.bind_some] at h
        cases h3 : expect .else_ ws with
        | none => rw [h3] at h; cases h
        | some xs =>
          obtain rfl := expect_cons h3
          rw [h3] at h
          simp only [Option.bind_some] at h
          cases h4 : rec .expr xs with
          | none => rw [h4] at h; cases h
          | some r =>
            obtain ⟨f, ys⟩ := r
            have g3 := IH .expr xs f ys (safe_tail g2.safe) rfl h4
            rw [h4] at h
            simp only [Option.bind_some, Option.some.injEq, Prod.mk.injEq] at h
            obtain ⟨rfl, rfl⟩ := h
            refine ⟨ev3 g1.ev g2.ev g3.ev (fun rec r1 r2 r3 => ?_), g3.safe, g3.noPh⟩
            simp only [fillM] at r1 r2 r3 ⊢
            have e1 : fill σ (.if_ :: vs) = .if_ :: fill σ vs := rfl
            have e2 : fill σ (.else_ :: xs) = .else_ :: fill σ xs := rfl
            rw [e1] at r1
            rw [e2] at r2
            simp only [parseStep, r1, Option.bind_some, r2, expect, if_true, r3, fillA]
    · next hne =>
      simp only [Option.some.injEq, Prod.mk.injEq] at h
      obtain ⟨rfl, rfl⟩ := h
      refine ⟨ev1 g1.ev (fun rec r1 => ?_), g1.safe, g1.noPh⟩
      simp only [fillM] at r1 ⊢
      simp only [parseStep, r1, Option.bind_some]
      split
      · next us' he =>
        obtain ⟨ts', e, _⟩ := noPh_cons g1.noPh he
        exact absurd e (hne ts')
      · rfl

include IH in
/-- Two parts, the second after the first. -/
theorem good_two {m m1 : Mode} {m2 : Ast → Mode} {ts : List Tok} {a : Ast} {rest : List Tok}
    (hm : ∀ (rec : P) (ts : List Tok), parseStep rec m ts = (rec m1 ts).bind fun (a, ts) => rec (m2 a) ts)
    (e0 : fillM σ m = m) (e1 : fillM σ m1 = m1) (e2 : ∀ a, fillM σ (m2 a) = m2 (fillA σ a))
    (hs : safe σ ts = true) (hp1 : pre σ m1 ts = true) (hp2 : ∀ a us, noPh σ us = true → pre σ (m2 a) us = true)
    (h : parseStep rec m ts = some (a, rest)) : Stays σ m ts a rest := by
  rw [hm] at h
  cases h1 : rec m1 ts with
  | none => rw [h1] at h; cases h
  | some r =>
    obtain ⟨b, us⟩ := r
    rw [h1] at h
    simp only [Option.bind_some] at h
    have g1 := IH m1 ts b us hs hp1 h1
    have g2 := IH (m2 b) us a rest g1.safe (hp2 b us g1.noPh) h
    refine ⟨ev2 g1.ev g2.ev (fun rec r1 r2 => ?_), g2.safe, g2.noPh⟩
    rw [e1] at r1
    rw [e2] at r2
    rw [e0, hm, r1]
    exact r2

include IH in
theorem good_orMore {acc : List Ast} {ts : List Tok} {a : Ast} {rest : List Tok} (hs : safe σ ts = true)
    (hp : noPh σ ts = true) (h : parseStep rec (.orMore acc) ts = some (a, rest)) : Stays σ (.orMore acc) ts a rest := by
  simp only [parseStep] at h
  split at h
  · next us =>
    have s1 := safe_tail hs
    cases h1 : rec .and us with
    | none => rw [h1] at h; cases h
    | some r =>
      obtain ⟨b, vs⟩ := r
      have g1 := IH .and us b vs s1 rfl h1
      rw [h1] at h
      simp only [Option.bind_some] at h
      have g2 := IH (.orMore (acc ++ [b])) vs a rest g1.safe g1.noPh h
      refine ⟨ev2 g1.ev g2.ev (fun rec r1 r2 => ?_), g2.safe, g2.noPh⟩
      simp only [fillM, fillAs_snoc] at r1 r2 ⊢
      have e1 : fill σ (.or_ :: us) = .or_ :: fill σ us := rfl
      rw [e1]
      simp only [parseStep, r1, Option.bind_some, r2]
  · next hne =>
    simp only [Option.some.injEq, Prod.mk.injEq] at h
    obtain ⟨rfl, rfl⟩ := h
    refine ⟨ev0 (fun rec => ?_), hs, hp⟩
    simp only [fillM, parseStep]
    split
    · next us' he =>
      obtain ⟨ts', e, _⟩ := noPh_cons hp he
      exact absurd e (hne ts')
    · rw [fill_mkBool]

include IH in
theorem good_andMore {acc : List Ast} {ts : List Tok} {a : Ast} {rest : List Tok} (hs : safe σ ts = true)
    (hp : noPh σ ts = true) (h : parseStep rec (.andMore acc) ts = some (a, rest)) :
    Stays σ (.andMore acc) ts a rest := by
  simp only [parseStep] at h
  split at h
  · next us =>
    have s1 := safe_tail hs
    cases h1 : rec .not us with
    | none => rw [h1] at h; cases h
    | some r =>
      obtain ⟨b, vs⟩ := r
      have g1 := IH .not us b vs s1 rfl h1
      rw [h1] at h
      simp only [Option.bind_some] at h
      have g2 := IH (.andMore (acc ++ [b])) vs a rest g1.safe g1.noPh h
      refine ⟨ev2 g1.ev g2.ev (fun rec r1 r2 => ?_), g2.safe, g2.noPh⟩
      simp only [fillM, fillAs_snoc] at r1 r2 ⊢
      have e1 : fill σ (.and_ :: us) = .and_ :: fill σ us := rfl
      rw [e1]
      simp only [parseStep, r1, Option.bind_some, r2]
  · next hne =>
    simp only [Option.some.injEq, Prod.mk.injEq] at h
    obtain ⟨rfl, rfl⟩ := h
    refine ⟨ev0 (fun rec => ?_), hs, hp⟩
    simp only [fillM, parseStep]
    split
    · next us' he =>
      obtain ⟨ts', e, _⟩ := noPh_cons hp he
      exact absurd e (hne ts')
    · rw [fill_mkBool]

include hσ IH in
theorem good_not {ts : List Tok} {a : Ast} {rest : List Tok} (hs : safe σ ts = true)
    (h : parseStep rec .not ts = some (a, rest)) : Stays σ .not ts a rest := by
  simp only [parseStep] at h
  split at h
  · next us =>
    have s1 := safe_tail hs
    cases h1 : rec .not us with
    | none => rw [h1] at h; cases h
    | some r =>
      obtain ⟨b, vs⟩ := r
      have g1 := IH .not us b vs s1 rfl h1
      rw [h1] at h
      simp only [Option.bind_some, Option.some.injEq, Prod.mk.injEq] at h
      obtain ⟨rfl, rfl⟩ := h
      refine ⟨ev1 g1.ev (fun rec r1 => ?_), g1.safe, g1.noPh⟩
      simp only [fillM] at r1 ⊢
      have e1 : fill σ (.not_ :: us) = .not_ :: fill σ us := rfl
      rw [e1]
      simp only [parseStep, r1, Option.bind_some, fillA]
  · next hne =>
    have g1 := IH .cmp ts a rest hs rfl h
    refine ⟨ev_not g1.ev (fill_head hσ rfl ?_), g1.safe, g1.noPh⟩
    intro he
    cases ts with
    | nil => cases he
    | cons t us => exact hne us (by rw [Option.some.inj he])

/-- Operators leave safe tokens. -/
theorem safe_cmpOp {ts us : List Tok} {o : Cmp} (hs : safe σ ts = true) (h : cmpOp ts = some (o, us)) :
    safe σ us = true := by
  unfold cmpOp at h
  split at h <;> first
    | (simp only [Option.some.injEq, Prod.mk.injEq] at h; obtain ⟨_, rfl⟩ := h
       first | exact safe_tail hs | exact safe_tail (safe_tail hs))
    | cases h

theorem safe_addOp {ts us : List Tok} {o : Arith} (hs : safe σ ts = true) (h : addOp ts = some (o, us)) :
    safe σ us = true := by
  unfold addOp at h
  split at h <;> first
    | (simp only [Option.some.injEq, Prod.mk.injEq] at h; obtain ⟨_, rfl⟩ := h; exact safe_tail hs)
    | cases h

theorem safe_mulOp {ts us : List Tok} {o : Arith} (hs : safe σ ts = true) (h : mulOp ts = some (o, us)) :
    safe σ us = true := by
  unfold mulOp at h
  split at h <;> first
    | (simp only [Option.some.injEq, Prod.mk.injEq] at h; obtain ⟨_, rfl⟩ := h; exact safe_tail hs)
    | cases h

include hσ IH in
theorem good_cmpMore {x : Ast} {os : List Cmp} {bs : List Ast} {ts : List Tok} {a : Ast} {rest : List Tok}
    (hs : safe σ ts = true) (hp : noPh σ ts = true) (h : parseStep rec (.cmpMore x os bs) ts = some (a, rest)) :
    Stays σ (.cmpMore x os bs) ts a rest := by
  simp only [parseStep] at h
  have hop := cmpOp_fill hσ hp
  cases h0 : cmpOp ts with
  | none =>
    rw [h0] at h hop
    simp only [Option.some.injEq, Prod.mk.injEq] at h
    obtain ⟨rfl, rfl⟩ := h
    refine ⟨ev0 (fun rec => ?_), hs, hp⟩
    simp only [fillM, parseStep, hop, Option.map_none, fill_mkCmp]
  | some p =>
    obtain ⟨o, us⟩ := p
    rw [h0] at h hop
    simp only at h
    cases h1 : rec .arith us with
    | none => rw [h1] at h; cases h
    | some r =>
      obtain ⟨b, vs⟩ := r
      have g1 := IH .arith us b vs (safe_cmpOp hs h0) rfl h1
      rw [h1] at h
      simp only [Option.bind_some] at h
      have g2 := IH (.cmpMore x (os ++ [o]) (bs ++ [b])) vs a rest g1.safe g1.noPh h
      refine ⟨ev2 g1.ev g2.ev (fun rec r1 r2 => ?_), g2.safe, g2.noPh⟩
      simp only [fillM, fillAs_snoc] at r1 r2 ⊢
      simp only [parseStep, hop, Option.map_some, r1, Option.bind_some, r2]

include IH in
theorem good_arithMore {x : Ast} {ts : List Tok} {a : Ast} {rest : List Tok}
    (hs : safe σ ts = true) (hp : noPh σ ts = true) (h : parseStep rec (.arithMore x) ts = some (a, rest)) :
    Stays σ (.arithMore x) ts a rest := by
  simp only [parseStep] at h
  have hop := addOp_fill hp
  cases h0 : addOp ts with
  | none =>
    rw [h0] at h hop
    simp only [Option.some.injEq, Prod.mk.injEq] at h
    obtain ⟨rfl, rfl⟩ := h
    refine ⟨ev0 (fun rec => ?_), hs, hp⟩
    simp only [fillM, parseStep, hop, Option.map_none]
  | some p =>
    obtain ⟨o, us⟩ := p
    rw [h0] at h hop
    simp only at h
    cases h1 : rec .term us with
    | none => rw [h1] at h; cases h
    | some r =>
      obtain ⟨b, vs⟩ := r
      have g1 := IH .term us b vs (safe_addOp hs h0) rfl h1
      rw [h1] at h
      simp only [Option.bind_some] at h
      have g2 := IH (.arithMore (.bin o x b)) vs a rest g1.safe g1.noPh h
      refine ⟨ev2 g1.ev g2.ev (fun rec r1 r2 => ?_), g2.safe, g2.noPh⟩
      simp only [fillM, fillA] at r1 r2 ⊢
      simp only [parseStep, hop, Option.map_some, r1, Option.bind_some, r2]

include IH in
theorem good_termMore {x : Ast} {ts : List Tok} {a : Ast} {rest : List Tok}
    (hs : safe σ ts = true) (hp : noPh σ ts = true) (h : parseStep rec (.termMore x) ts = some (a, rest)) :
    Stays σ (.termMore x) ts a rest := by
  simp only [parseStep] at h
  have hop := mulOp_fill hp
  cases h0 : mulOp ts with
  | none =>
    rw [h0] at h hop
    simp only [Option.some.injEq, Prod.mk.injEq] at h
    obtain ⟨rfl, rfl⟩ := h
    refine ⟨ev0 (fun rec => ?_), hs, hp⟩
    simp only [fillM, parseStep, hop, Option.map_none]
  | some p =>
    obtain ⟨o, us⟩ := p
    rw [h0] at h hop
    simp only at h
    cases h1 : rec .factor us with
    | none => rw [h1] at h; cases h
    | some r =>
      obtain ⟨b, vs⟩ := r
      have g1 := IH .factor us b vs (safe_mulOp hs h0) rfl h1
      rw [h1] at h
      simp only [Option.bind_some] at h
      have g2 := IH (.termMore (.bin o x b)) vs a rest g1.safe g1.noPh h
      refine ⟨ev2 g1.ev g2.ev (fun rec r1 r2 => ?_), g2.safe, g2.noPh⟩
      simp only [fillM, fillA] at r1 r2 ⊢
      simp only [parseStep, hop, Option.map_some, r1, Option.bind_some, r2]

/-- No lookup and no call comes first after filling. -/
theorem strength_fill {ts : List Tok} (hp : noPh σ ts = true) (ht : noTrailer ts = true) :
    1 ≤ strength (fill σ ts) := by
  cases ts with
  | nil => simp [fill, strength]
  | cons t ts =>
    rw [fill_noPh hp]
    cases t <;> first | (simp [strength]; done) | cases ht

include hσ IH in
theorem good_factor {n : Nat} (hrec : rec = parse n) {ts : List Tok} {a : Ast} {rest : List Tok} (hs : safe σ ts = true)
    (h : parseStep rec .factor ts = some (a, rest)) : Stays σ .factor ts a rest := by
  simp only [parseStep] at h
  split at h
  · next us =>
    have s1 := safe_tail hs
    cases h1 : rec .factor us with
    | none => rw [h1] at h; cases h
    | some r =>
      obtain ⟨b, vs⟩ := r
      have g1 := IH .factor us b vs s1 rfl h1
      rw [h1] at h
      simp only [Option.bind_some, Option.some.injEq, Prod.mk.injEq] at h
      obtain ⟨rfl, rfl⟩ := h
      refine ⟨ev1 g1.ev (fun rec r1 => ?_), g1.safe, g1.noPh⟩
      simp only [fillM] at r1 ⊢
      have e1 : fill σ (.minus :: us) = .minus :: fill σ us := rfl
      rw [e1]
      simp only [parseStep, r1, Option.bind_some, fillA]
  · next hne =>
    by_cases hpre : pre σ .primary ts = true
    · have g1 := IH .primary ts a rest hs hpre h
      refine ⟨?_, g1.safe, g1.noPh⟩
      refine ev1 g1.ev (fun rec r1 => ?_)
      simp only [fillM] at r1 ⊢
      have hm : (fill σ ts).head? ≠ some .minus := by
        cases ts with
        | nil => simp [fill]
        | cons t us =>
          cases t with
          | name x =>
            rw [fill_cons]
            simp only [fillTok]
            cases hx : σ x with
            | none => simp
            | some p =>
              obtain ⟨vs, b, c⟩ := p
              cases c with
              | false => simp [pre, hx] at hpre
              | true =>
                obtain ⟨t, l, e, _, h2⟩ := ((hσ x vs b true hx).2 rfl).start
                subst e
                simpa using h2
          | minus => exact absurd rfl (hne us)
          | _ => simp [fill_cons, fillTok]
      cases hf : fill σ ts with
      | nil => rw [hf] at r1; exact r1
      | cons t us =>
        rw [hf] at r1 hm
        cases t <;> first | exact r1 | exact absurd rfl hm
    · -- a code which is no primary
      cases ts with
      | nil => exact absurd rfl hpre
      | cons t us =>
        cases t with
        | name x =>
          cases hx : σ x with
          | none => simp [pre, hx] at hpre
          | some p =>
            obtain ⟨vs, b, c⟩ := p
            cases c with
            | true => simp [pre, hx] at hpre
            | false =>
              have hn := safe_next hs
              simp only [okNext, hx, Bool.and_eq_true] at hn
              have hprim : ∀ n, parse n .primary (.name x :: us) = some (a, rest) → a = .name x ∧ rest = us := by
                intro n hh
                have h1 : Ev (.trailers (.name x)) us (.name x, us) := by
                  refine ev_trailers_end ?_
                  cases us with
                  | nil => simp [strength]
                  | cons u us => cases u <;> first | (simp [strength]; done) | (simp [noTrailer] at hn; done)
                have h2 : Ev .primary (.name x :: us) (.name x, us) := ev1 h1 (fun rec r1 => by simpa only [parseStep] using r1)
                obtain ⟨k, h2⟩ := h2
                have h3 := parse_more hh (show n ≤ n + k by omega)
                rw [h2 (n + k) (by omega)] at h3
                simp only [Option.some.injEq, Prod.mk.injEq] at h3
                exact ⟨h3.1.symm, h3.2.symm⟩
              rw [hrec] at h
              obtain ⟨rfl, rfl⟩ := hprim n h
              refine ⟨?_, safe_tail hs, hn.1⟩
              have := (hσ x vs b false hx).1.read (fill σ rest) (strength_fill hn.1 hn.2)
              simpa [fillM, fill_cons, fillTok, fillA, hx] using this
        | _ => exact absurd rfl hpre

include hσ IH in
theorem good_primary {ts : List Tok} {a : Ast} {rest : List Tok} (hs : safe σ ts = true) (hp : pre σ .primary ts = true)
    (h : parseStep rec .primary ts = some (a, rest)) : Stays σ .primary ts a rest := by
  simp only [parseStep] at h
  split at h
  · next x us =>
    have hn := safe_next hs
    simp only [okNext, Bool.and_eq_true] at hn
    have g1 := IH (.trailers (.name x)) us a rest (safe_tail hs) hn.1 h
    refine ⟨?_, g1.safe, g1.noPh⟩
    have h1 := g1.ev
    rw [fill_cons]
    cases hx : σ x with
    | none =>
      simp only [fillTok, hx]
      simp only [fillM, fillA, hx] at h1 ⊢
      exact ev1 h1 (fun rec r1 => r1)
    | some p =>
      obtain ⟨vs, b, c⟩ := p
      cases c with
      | false => simp [pre, hx] at hp
      | true =>
        simp only [fillTok, hx]
        simp only [fillM, fillA, hx] at h1 ⊢
        exact ((hσ x vs b true hx).2 rfl).read _ _ h1
  · next k us =>
    have g1 := IH (.trailers (.num k)) us a rest (safe_tail hs) (safe_next hs) h
    exact ⟨ev1 g1.ev (fun rec r1 => by simp only [fillM, fillA] at r1; exact r1), g1.safe, g1.noPh⟩
  · next s us =>
    have g1 := IH (.trailers (.str s)) us a rest (safe_tail hs) (safe_next hs) h
    exact ⟨ev1 g1.ev (fun rec r1 => by simp only [fillM, fillA] at r1; exact r1), g1.safe, g1.noPh⟩
  all_goals first
    | cases h
    | skip
  · next us =>
    cases h1 : rec .paren us with
    | none => rw [h1] at h; cases h
    | some r =>
      obtain ⟨b, vs⟩ := r
      have g1 := IH .paren us b vs (safe_tail hs) rfl h1
      rw [h1] at h
      simp only [Option.bind_some] at h
      have g2 := IH (.trailers b) vs a rest g1.safe g1.noPh h
      refine ⟨ev2 g1.ev g2.ev (fun rec r1 r2 => ?_), g2.safe, g2.noPh⟩
      simp only [fillM] at r1 r2 ⊢
      have e1 : fill σ (.lpar :: us) = .lpar :: fill σ us := rfl
      rw [e1]
      simp only [parseStep, r1, Option.bind_some, r2]
  · next us =>
    cases h1 : rec .brack us with
    | none => rw [h1] at h; cases h
    | some r =>
      obtain ⟨b, vs⟩ := r
      have g1 := IH .brack us b vs (safe_tail hs) rfl h1
      rw [h1] at h
      simp only [Option.bind_some] at h
      have g2 := IH (.trailers b) vs a rest g1.safe g1.noPh h
      refine ⟨ev2 g1.ev g2.ev (fun rec r1 r2 => ?_), g2.safe, g2.noPh⟩
      simp only [fillM] at r1 r2 ⊢
      have e1 : fill σ (.lbr :: us) = .lbr :: fill σ us := rfl
      rw [e1]
      simp only [parseStep, r1, Option.bind_some, r2]
  · next us =>
    cases h1 : rec .brace us with
    | none => rw [h1] at h; cases h
    | some r =>
      obtain ⟨b, vs⟩ := r
      have g1 := IH .brace us b vs (safe_tail hs) rfl h1
      rw [h1] at h
      simp only [Option.bind_some] at h
      have g2 := IH (.trailers b) vs a rest g1.safe g1.noPh h
      refine ⟨ev2 g1.ev g2.ev (fun rec r1 r2 => ?_), g2.safe, g2.noPh⟩
      simp only [fillM] at r1 r2 ⊢
      have e1 : fill σ (.lcu :: us) = .lcu :: fill σ us := rfl
      rw [e1]
      simp only [parseStep, r1, Option.bind_some, r2]

include IH in
theorem good_trailers {x : Ast} {ts : List Tok} {a : Ast} {rest : List Tok}
    (hs : safe σ ts = true) (hp : noPh σ ts = true) (h : parseStep rec (.trailers x) ts = some (a, rest)) :
    Stays σ (.trailers x) ts a rest := by
  simp only [parseStep] at h
  split at h
  · next us =>
    have hn := safe_next hs
    split at h
    · next s vs =>
      split at h
      · cases h
      · next hc =>
        have hn2 := safe_next (safe_tail hs)
        simp only [okNext, noPh, Bool.and_eq_true] at hn hn2
        have g1 := IH (.trailers (.attr x s)) vs a rest (safe_tail (safe_tail hs)) hn2.1 h
        refine ⟨ev1 g1.ev (fun rec r1 => ?_), g1.safe, g1.noPh⟩
        simp only [fillM, fillA] at r1 ⊢
        have e1 : fill σ (.dot :: .name s :: vs) = .dot :: .name s :: fill σ vs := by
          rw [fill_cons, fill_cons]
          simp [fillTok, Option.isNone_iff_eq_none.1 hn]
        rw [e1]
        simp only [parseStep, hc, r1]
        rfl
    · cases h
  · next us =>
    cases h1 : rec .expr us with
    | none => rw [h1] at h; cases h
    | some r =>
      obtain ⟨b, vs⟩ := r
      have g1 := IH .expr us b vs (safe_tail hs) rfl h1
      rw [h1] at h
      simp only [Option.bind_some] at h
      cases h2 : expect .rbr vs with
      | none => rw [h2] at h; cases h
      | some ws =>
        obtain rfl := expect_cons h2
        rw [h2] at h
        simp only [Option.bind_some] at h
        have g2 := IH (.trailers (.sub x b)) ws a rest (safe_tail g1.safe) (safe_next g1.safe) h
        refine ⟨ev2 g1.ev g2.ev (fun rec r1 r2 => ?_), g2.safe, g2.noPh⟩
        simp only [fillM, fillA] at r1 r2 ⊢
        have e1 : fill σ (.lbr :: us) = .lbr :: fill σ us := rfl
        have e2 : fill σ (.rbr :: ws) = .rbr :: fill σ ws := rfl
        rw [e2] at r1
        rw [e1]
        simp only [parseStep, r1, Option.bind_some, expect, if_true, r2]
  · next us =>
    cases h1 : rec (.args x [] []) us with
    | none => rw [h1] at h; cases h
    | some r =>
      obtain ⟨b, vs⟩ := r
      have g1 := IH (.args x [] []) us b vs (safe_tail hs) (safe_next hs) h1
      rw [h1] at h
      simp only [Option.bind_some] at h
      have g2 := IH (.trailers b) vs a rest g1.safe g1.noPh h
      refine ⟨ev2 g1.ev g2.ev (fun rec r1 r2 => ?_), g2.safe, g2.noPh⟩
      simp only [fillM, fillAs] at r1 r2 ⊢
      have e1 : fill σ (.lpar :: us) = .lpar :: fill σ us := rfl
      rw [e1]
      simp only [parseStep, r1, Option.bind_some, r2]
  · next h1 h2 h3 =>
    simp only [Option.some.injEq, Prod.mk.injEq] at h
    obtain ⟨rfl, rfl⟩ := h
    refine ⟨ev_trailers_end (strength_fill hp ?_), hs, hp⟩
    cases ts with
    | nil => rfl
    | cons t us =>
      cases t <;> first | rfl | exact absurd rfl (h1 us) | exact absurd rfl (h2 us) | exact absurd rfl (h3 us)

/-- A step which is read in two parts. -/
theorem ev_then {m m1 : Mode} {ts us : List Tok} {x : Ast × List Tok} {r : Ast × List Tok} {f : P → Option (Ast × List Tok)}
    (h1 : Ev m1 us x) (h2 : ∃ n0, ∀ n, n0 ≤ n → f (parse n) = some r)
    (h : ∀ rec : P, rec m1 us = some x → f rec = some r → parseStep rec m ts = some r) : Ev m ts r := by
  obtain ⟨n1, h1⟩ := h1
  obtain ⟨n2, h2⟩ := h2
  refine ⟨n1 + n2 + 1, fun n hn => ?_⟩
  obtain ⟨k, rfl⟩ : ∃ k, n = k + 1 := ⟨n - 1, by omega⟩
  exact h (parse k) (h1 k (by omega)) (h2 k (by omega))

include IH in
theorem good_itemsNext {k : Shape} {acc : List Ast} {ts : List Tok} {a : Ast} {rest : List Tok}
    (hs : safe σ ts = true) (hp : noPh σ ts = true) (h : itemsNext rec k acc ts = some (a, rest)) :
    (∃ n0, ∀ n, n0 ≤ n → itemsNext (parse n) k (fillAs σ acc) (fill σ ts) = some (fillA σ a, fill σ rest)) ∧
      safe σ rest = true ∧ noPh σ rest = true := by
  simp only [itemsNext] at h
  split at h
  · next us =>
    have g := IH (.items k acc) us a rest (safe_tail hs) rfl h
    obtain ⟨n0, hn⟩ := g.ev
    exact ⟨⟨n0, fun n hle => hn n hle⟩, g.safe, g.noPh⟩
  · next hne =>
    cases h1 : expect k.close ts with
    | none => rw [h1] at h; cases h
    | some us =>
      rw [h1] at h
      simp only [Option.map_some, Option.some.injEq, Prod.mk.injEq] at h
      obtain ⟨rfl, rfl⟩ := h
      obtain rfl := expect_cons h1
      refine ⟨⟨0, fun n _ => ?_⟩, safe_tail hs, close_noPh hs⟩
      cases k <;> rfl

include IH in
theorem good_pairsNext {acc : List Ast} {ts : List Tok} {a : Ast} {rest : List Tok}
    (hs : safe σ ts = true) (h : pairsNext rec acc ts = some (a, rest)) :
    (∃ n0, ∀ n, n0 ≤ n → pairsNext (parse n) (fillAs σ acc) (fill σ ts) = some (fillA σ a, fill σ rest)) ∧
      safe σ rest = true ∧ noPh σ rest = true := by
  simp only [pairsNext] at h
  split at h
  · next us =>
    have g := IH (.pairs acc) us a rest (safe_tail hs) rfl h
    obtain ⟨n0, hn⟩ := g.ev
    exact ⟨⟨n0, fun n hle => hn n hle⟩, g.safe, g.noPh⟩
  · next us =>
    simp only [Option.some.injEq, Prod.mk.injEq] at h
    obtain ⟨rfl, rfl⟩ := h
    exact ⟨⟨0, fun n _ => rfl⟩, safe_tail hs, safe_next hs⟩
  · cases h

theorem paren_step (rec : P) {ts : List Tok} (h : ts.head? ≠ some .rpar) :
    parseStep rec .paren ts = (rec .expr ts).bind fun (a, ts) =>
        match ts with
        | .rpar :: ts => some (a, ts)
        | .for_ :: ts => rec (.comp .gen [a]) ts
        | ts => itemsNext rec .tuple [a] ts := by
  cases ts with
  | nil => rfl
  | cons t ts => cases t <;> first | rfl | exact absurd rfl h

theorem brack_step (rec : P) {ts : List Tok} (h : ts.head? ≠ some .rbr) :
    parseStep rec .brack ts = (rec .expr ts).bind fun (a, ts) =>
        match ts with
        | .for_ :: ts => rec (.comp .list [a]) ts
        | ts => itemsNext rec .list [a] ts := by
  cases ts with
  | nil => rfl
  | cons t ts => cases t <;> first | rfl | exact absurd rfl h

theorem brace_step (rec : P) {ts : List Tok} (h : ts.head? ≠ some .rcu) :
    parseStep rec .brace ts = (rec .expr ts).bind fun (a, ts) =>
        match ts with
        | .colon :: ts =>
          (rec .expr ts).bind fun (b, ts) =>
            match ts with
            | .for_ :: ts => rec (.comp .dict [a, b]) ts
            | ts => pairsNext rec [a, b] ts
        | .for_ :: ts => rec (.comp .set [a]) ts
        | ts => itemsNext rec .set [a] ts := by
  cases ts with
  | nil => rfl
  | cons t ts => cases t <;> first | rfl | exact absurd rfl h

theorem pairs_step (rec : P) (acc : List Ast) {ts : List Tok} (h : ts.head? ≠ some .rcu) :
    parseStep rec (.pairs acc) ts = (rec .expr ts).bind fun (a, ts) =>
        (expect .colon ts).bind fun ts =>
          (rec .expr ts).bind fun (b, ts) => pairsNext rec (acc ++ [a, b]) ts := by
  cases ts with
  | nil => rfl
  | cons t ts => cases t <;> first | rfl | exact absurd rfl h

/-- Not this token first. -/
theorem head_ne {ts : List Tok} {t : Tok} (h : ∀ us, ts = t :: us → False) : ts.head? ≠ some t := by
  cases ts with
  | nil => simp
  | cons u us =>
    intro he
    exact h us (by rw [Option.some.inj he])

include IH in
theorem good_comp {k : Shape} {elt : List Ast} {ts : List Tok} {a : Ast} {rest : List Tok} (hs : safe σ ts = true)
    (hp : noPh σ ts = true) (h : parseStep rec (.comp k elt) ts = some (a, rest)) : Stays σ (.comp k elt) ts a rest := by
  simp only [parseStep] at h
  split at h
  · next v us =>
    split at h
    · cases h
    · next hc =>
      simp only [noPh, Option.isNone_iff_eq_none] at hp
      have e1 : fill σ (.name v :: .in_ :: us) = .name v :: .in_ :: fill σ us := by
        rw [fill_cons, fill_cons]
        simp [fillTok, hp]
      cases h1 : rec .or us with
      | none => rw [h1] at h; cases h
      | some r =>
        obtain ⟨it, vs⟩ := r
        have g1 := IH .or us it vs (safe_tail (safe_tail hs)) rfl h1
        rw [h1] at h
        simp only [Option.bind_some] at h
        split at h
        · next ws =>
          cases h2 : rec .or ws with
          | none => rw [h2] at h; cases h
          | some r =>
            obtain ⟨c, xs⟩ := r
            have g2 := IH .or ws c xs (safe_tail g1.safe) rfl h2
            rw [h2] at h
            simp only [Option.bind_some, Option.map_eq_some_iff, Prod.mk.injEq] at h
            obtain ⟨ys, h3, rfl, rfl⟩ := h
            have e3 := expect_fill (t := k.close) g2.noPh
            rw [h3] at e3
            obtain rfl := expect_cons h3
            refine ⟨ev2 g1.ev g2.ev (fun rec r1 r2 => ?_), safe_tail g2.safe, close_noPh g2.safe⟩
            simp only [fillM] at r1 r2 ⊢
            rw [show fill σ (.if_ :: ws) = .if_ :: fill σ ws from rfl] at r1
            rw [e1]
            simp only [parseStep]
            rw [if_neg hc, r1]
            simp only [Option.bind_some, r2, e3, Option.map_some, fillA, fillAs]
        · next hne =>
          simp only [Option.map_eq_some_iff, Prod.mk.injEq] at h
          obtain ⟨ys, h3, rfl, rfl⟩ := h
          have e3 := expect_fill (t := k.close) g1.noPh
          rw [h3] at e3
          obtain rfl := expect_cons h3
          refine ⟨ev1 g1.ev (fun rec r1 => ?_), safe_tail g1.safe, close_noPh g1.safe⟩
          simp only [fillM] at r1 ⊢
          rw [e1]
          simp only [parseStep]
          rw [if_neg hc, r1]
          simp only [Option.bind_some]
          split
          · next he =>
            obtain ⟨w, e, _⟩ := noPh_cons g1.noPh he
            exact (hne w e).elim
          · simp only [e3, Option.map_some, fillA, fillAs]
  · cases h

include hσ IH in
theorem good_paren {ts : List Tok} {a : Ast} {rest : List Tok} (hs : safe σ ts = true)
    (h : parseStep rec .paren ts = some (a, rest)) : Stays σ .paren ts a rest := by
  by_cases hh : ts.head? = some .rpar
  · obtain ⟨us, rfl⟩ : ∃ us, ts = .rpar :: us := by
      cases ts with
      | nil => cases hh
      | cons u us => exact ⟨us, by rw [Option.some.inj hh]⟩
    simp only [parseStep, Option.some.injEq, Prod.mk.injEq] at h
    obtain ⟨rfl, rfl⟩ := h
    exact ⟨ev0 (fun rec => rfl), safe_tail hs, safe_next hs⟩
  · rw [paren_step rec hh] at h
    have hf := fill_head hσ rfl hh
    cases h1 : rec .expr ts with
    | none => rw [h1] at h; cases h
    | some r =>
      obtain ⟨b, us⟩ := r
      have g1 := IH .expr ts b us hs rfl h1
      rw [h1] at h
      simp only [Option.bind_some] at h
      split at h
      · next vs =>
        simp only [Option.some.injEq, Prod.mk.injEq] at h
        obtain ⟨rfl, rfl⟩ := h
        refine ⟨ev1 g1.ev (fun rec r1 => ?_), safe_tail g1.safe, safe_next g1.safe⟩
        simp only [fillM] at r1 ⊢
        rw [paren_step rec hf, r1]
        rfl
      · next vs =>
        have g2 := IH (.comp _ _) vs a rest (safe_tail g1.safe) (safe_next g1.safe) h
        refine ⟨ev2 g1.ev g2.ev (fun rec r1 r2 => ?_), g2.safe, g2.noPh⟩
        simp only [fillM, fillAs] at r1 r2 ⊢
        rw [show fill σ (.for_ :: vs) = .for_ :: fill σ vs from rfl] at r1
        rw [paren_step rec hf, r1]
        exact r2
      · next n1 n2 =>
        obtain ⟨g2, s2, p2⟩ := good_itemsNext IH g1.safe g1.noPh h
        refine ⟨ev_then (f := fun rec => itemsNext rec .tuple (fillAs σ [b]) (fill σ us)) g1.ev g2
          (fun rec r1 r2 => ?_), s2, p2⟩
        simp only [fillM, fillAs] at r1 r2 ⊢
        rw [paren_step rec hf, r1]
        simp only [Option.bind_some]
        split
        · next he => obtain ⟨w, e, _⟩ := noPh_cons g1.noPh he; exact (n1 w e).elim
        · next he => obtain ⟨w, e, _⟩ := noPh_cons g1.noPh he; exact (n2 w e).elim
        · exact r2

include hσ IH in
theorem good_brack {ts : List Tok} {a : Ast} {rest : List Tok} (hs : safe σ ts = true)
    (h : parseStep rec .brack ts = some (a, rest)) : Stays σ .brack ts a rest := by
  by_cases hh : ts.head? = some .rbr
  · obtain ⟨us, rfl⟩ : ∃ us, ts = .rbr :: us := by
      cases ts with
      | nil => cases hh
      | cons u us => exact ⟨us, by rw [Option.some.inj hh]⟩
    simp only [parseStep, Option.some.injEq, Prod.mk.injEq] at h
    obtain ⟨rfl, rfl⟩ := h
    exact ⟨ev0 (fun rec => rfl), safe_tail hs, safe_next hs⟩
  · rw [brack_step rec hh] at h
    have hf := fill_head hσ rfl hh
    cases h1 : rec .expr ts with
    | none => rw [h1] at h; cases h
    | some r =>
      obtain ⟨b, us⟩ := r
      have g1 := IH .expr ts b us hs rfl h1
      rw [h1] at h
      simp only [Option.bind_some] at h
      split at h
      · next vs =>
        have g2 := IH (.comp _ _) vs a rest (safe_tail g1.safe) (safe_next g1.safe) h
        refine ⟨ev2 g1.ev g2.ev (fun rec r1 r2 => ?_), g2.safe, g2.noPh⟩
        simp only [fillM, fillAs] at r1 r2 ⊢
        rw [show fill σ (.for_ :: vs) = .for_ :: fill σ vs from rfl] at r1
        rw [brack_step rec hf, r1]
        exact r2
      · next n2 =>
        obtain ⟨g2, s2, p2⟩ := good_itemsNext IH g1.safe g1.noPh h
        refine ⟨ev_then (f := fun rec => itemsNext rec .list (fillAs σ [b]) (fill σ us)) g1.ev g2
          (fun rec r1 r2 => ?_), s2, p2⟩
        simp only [fillM, fillAs] at r1 r2 ⊢
        rw [brack_step rec hf, r1]
        simp only [Option.bind_some]
        split
        · next he => obtain ⟨w, e, _⟩ := noPh_cons g1.noPh he; exact (n2 w e).elim
        · exact r2

include hσ IH in
theorem good_brace {ts : List Tok} {a : Ast} {rest : List Tok} (hs : safe σ ts = true)
    (h : parseStep rec .brace ts = some (a, rest)) : Stays σ .brace ts a rest := by
  by_cases hh : ts.head? = some .rcu
  · obtain ⟨us, rfl⟩ : ∃ us, ts = .rcu :: us := by
      cases ts with
      | nil => cases hh
      | cons u us => exact ⟨us, by rw [Option.some.inj hh]⟩
    simp only [parseStep, Option.some.injEq, Prod.mk.injEq] at h
    obtain ⟨rfl, rfl⟩ := h
    exact ⟨ev0 (fun rec => rfl), safe_tail hs, safe_next hs⟩
  · rw [brace_step rec hh] at h
    have hf := fill_head hσ rfl hh
    cases h1 : rec .expr ts with
    | none => rw [h1] at h; cases h
    | some r =>
      obtain ⟨b, us⟩ := r
      have g1 := IH .expr ts b us hs rfl h1
      rw [h1] at h
      simp only [Option.bind_some] at h
      split at h
      · next vs =>
        cases h2 : rec .expr vs with
        | none => rw [h2] at h; cases h
        | some r =>
          obtain ⟨c, ws⟩ := r
          have g2 := IH .expr vs c ws (safe_tail g1.safe) rfl h2
          rw [h2] at h
          simp only [Option.bind_some] at h
          split at h
          · next xs =>
            have g3 := IH (.comp _ _) xs a rest (safe_tail g2.safe) (safe_next g2.safe) h
            refine ⟨ev3 g1.ev g2.ev g3.ev (fun rec r1 r2 r3 => ?_), g3.safe, g3.noPh⟩
            simp only [fillM, fillAs] at r1 r2 r3 ⊢
            rw [show fill σ (.colon :: vs) = .colon :: fill σ vs from rfl] at r1
            rw [show fill σ (.for_ :: xs) = .for_ :: fill σ xs from rfl] at r2
            rw [brace_step rec hf, r1]
            simp only [Option.bind_some, r2]
            exact r3
          · next n2 =>
            obtain ⟨g3, s3, p3⟩ := good_pairsNext IH g2.safe h
            obtain ⟨k1, e1⟩ := g1.ev
            obtain ⟨k2, e2⟩ := g2.ev
            obtain ⟨k3, e3⟩ := g3
            refine ⟨⟨k1 + k2 + k3 + 1, fun n hn => ?_⟩, s3, p3⟩
            obtain ⟨k, rfl⟩ : ∃ k, n = k + 1 := ⟨n - 1, by omega⟩
            have r1 := e1 k (by omega)
            have r2 := e2 k (by omega)
            have r3 := e3 k (by omega)
            simp only [fillM, fillAs] at r1 r2 r3 ⊢
            rw [show fill σ (.colon :: vs) = .colon :: fill σ vs from rfl] at r1
            show parseStep (parse k) .brace _ = _
            rw [brace_step _ hf, r1]
            simp only [Option.bind_some, r2]
            split
            · next he => obtain ⟨w, e, _⟩ := noPh_cons g2.noPh he; exact (n2 w e).elim
            · exact r3
      · next vs =>
        have g2 := IH (.comp _ _) vs a rest (safe_tail g1.safe) (safe_next g1.safe) h
        refine ⟨ev2 g1.ev g2.ev (fun rec r1 r2 => ?_), g2.safe, g2.noPh⟩
        simp only [fillM, fillAs] at r1 r2 ⊢
        rw [show fill σ (.for_ :: vs) = .for_ :: fill σ vs from rfl] at r1
        rw [brace_step rec hf, r1]
        exact r2
      · next n1 n2 =>
        obtain ⟨g2, s2, p2⟩ := good_itemsNext IH g1.safe g1.noPh h
        refine ⟨ev_then (f := fun rec => itemsNext rec .set (fillAs σ [b]) (fill σ us)) g1.ev g2
          (fun rec r1 r2 => ?_), s2, p2⟩
        simp only [fillM, fillAs] at r1 r2 ⊢
        rw [brace_step rec hf, r1]
        simp only [Option.bind_some]
        split
        · next he => obtain ⟨w, e, _⟩ := noPh_cons g1.noPh he; exact (n1 w e).elim
        · next he => obtain ⟨w, e, _⟩ := noPh_cons g1.noPh he; exact (n2 w e).elim
        · exact r2

include hσ IH in
theorem good_items {k : Shape} {acc : List Ast} {ts : List Tok} {a : Ast} {rest : List Tok} (hs : safe σ ts = true)
    (h : parseStep rec (.items k acc) ts = some (a, rest)) : Stays σ (.items k acc) ts a rest := by
  simp only [parseStep] at h
  have he := expect_start hσ (startTok_close k) (ts := ts)
  cases h0 : expect k.close ts with
  | some us =>
    rw [h0] at h he
    simp only [Option.some.injEq, Prod.mk.injEq] at h
    obtain ⟨rfl, rfl⟩ := h
    obtain rfl := expect_cons h0
    refine ⟨ev0 (fun rec => ?_), safe_tail hs, close_noPh hs⟩
    simp only [fillM, parseStep, he, Option.map_some, fillA]
  | none =>
    rw [h0] at h he
    simp only at h
    cases h1 : rec .expr ts with
    | none => rw [h1] at h; cases h
    | some r =>
      obtain ⟨b, us⟩ := r
      have g1 := IH .expr ts b us hs rfl h1
      rw [h1] at h
      simp only [Option.bind_some] at h
      obtain ⟨g2, s2, p2⟩ := good_itemsNext IH g1.safe g1.noPh h
      refine ⟨ev_then (f := fun rec => itemsNext rec k (fillAs σ (acc ++ [b])) (fill σ us)) g1.ev g2
        (fun rec r1 r2 => ?_), s2, p2⟩
      simp only [fillM, fillAs_snoc] at r1 r2 ⊢
      simp only [parseStep, he, Option.map_none, r1, Option.bind_some, r2]

include hσ IH in
theorem good_pairs {acc : List Ast} {ts : List Tok} {a : Ast} {rest : List Tok} (hs : safe σ ts = true)
    (h : parseStep rec (.pairs acc) ts = some (a, rest)) : Stays σ (.pairs acc) ts a rest := by
  by_cases hh : ts.head? = some .rcu
  · obtain ⟨us, rfl⟩ : ∃ us, ts = .rcu :: us := by
      cases ts with
      | nil => cases hh
      | cons u us => exact ⟨us, by rw [Option.some.inj hh]⟩
    simp only [parseStep, Option.some.injEq, Prod.mk.injEq] at h
    obtain ⟨rfl, rfl⟩ := h
    exact ⟨ev0 (fun rec => rfl), safe_tail hs, safe_next hs⟩
  · rw [pairs_step rec acc hh] at h
    have hf := fill_head hσ rfl hh
    cases h1 : rec .expr ts with
    | none => rw [h1] at h; cases h
    | some r =>
      obtain ⟨b, us⟩ := r
      have g1 := IH .expr ts b us hs rfl h1
      rw [h1] at h
      simp only [Option.bind_some] at h
      cases h3 : expect .colon us with
      | none => rw [h3] at h; cases h
      | some vs =>
        obtain rfl := expect_cons h3
        rw [h3] at h
        simp only [Option.bind_some] at h
        cases h2 : rec .expr vs with
        | none => rw [h2] at h; cases h
        | some r =>
          obtain ⟨c, ws⟩ := r
          have g2 := IH .expr vs c ws (safe_tail g1.safe) rfl h2
          rw [h2] at h
          simp only [Option.bind_some] at h
          obtain ⟨g3, s3, p3⟩ := good_pairsNext IH g2.safe h
          obtain ⟨k1, e1⟩ := g1.ev
          obtain ⟨k2, e2⟩ := g2.ev
          obtain ⟨k3, e3⟩ := g3
          refine ⟨⟨k1 + k2 + k3 + 1, fun n hn => ?_⟩, s3, p3⟩
          obtain ⟨k, rfl⟩ : ∃ k, n = k + 1 := ⟨n - 1, by omega⟩
          have r1 := e1 k (by omega)
          have r2 := e2 k (by omega)
          have r3 := e3 k (by omega)
          simp only [fillM] at r1 r2 ⊢
          rw [show fill σ (.colon :: vs) = .colon :: fill σ vs from rfl] at r1
          show parseStep (parse k) (.pairs _) _ = _
          rw [pairs_step _ _ hf, r1]
          simp only [Option.bind_some, expect, if_true, r2]
          rw [fillAs_map] at r3 ⊢
          simpa using r3

include IH in
theorem good_argsMore {f : Ast} {acc : List Ast} {kws : List String} {ts : List Tok} {a : Ast} {rest : List Tok}
    (hs : safe σ ts = true) (h : parseStep rec (.argsMore f acc kws) ts = some (a, rest)) :
    Stays σ (.argsMore f acc kws) ts a rest := by
  simp only [parseStep] at h
  split at h
  · next us =>
    have g := IH (.args f acc kws) us a rest (safe_tail hs) (safe_next hs) h
    exact ⟨ev1 g.ev (fun rec r1 => r1), g.safe, g.noPh⟩
  · next us =>
    simp only [Option.some.injEq, Prod.mk.injEq] at h
    obtain ⟨rfl, rfl⟩ := h
    exact ⟨ev0 (fun rec => rfl), safe_tail hs, safe_next hs⟩
  · cases h

/-- No keyword argument comes first. -/
theorem noAssign_fill (hσ : Fills σ) {ts : List Tok} (hs : safe σ ts = true) (h : noAssign ts = true)  :
    noAssign (fill σ ts) = true := by
  cases ts with
  | nil => rfl
  | cons t us =>
    cases t with
    | name x =>
      have hn := safe_next hs
      simp only [okNext, Bool.and_eq_true] at hn
      have hu : us.head? ≠ some .assign := by
        cases us with
        | nil => simp
        | cons u vs => cases u <;> first | (simp; done) | (simp [noAssign] at h)
      have hf := fill_head hσ (t := .assign) rfl hu
      rw [fill_cons]
      simp only [fillTok]
      cases hx : σ x with
      | none =>
        simp only [List.cons_append, List.nil_append]
        cases hfu : fill σ us with
        | nil => rfl
        | cons u vs =>
          rw [hfu] at hf
          cases u <;> first | rfl | exact absurd rfl hf
      | some p =>
        obtain ⟨vs, b, c⟩ := p
        exact (hσ x vs b c hx).1.noKw _ hf
    | _ => rfl

include hσ IH in
theorem good_args {f : Ast} {acc : List Ast} {kws : List String} {ts : List Tok} {a : Ast} {rest : List Tok}
    (hs : safe σ ts = true) (hp : noPhKw σ ts = true) (h : parseStep rec (.args f acc kws) ts = some (a, rest)) :
    Stays σ (.args f acc kws) ts a rest := by
  by_cases hh : ts.head? = some .rpar
  · obtain ⟨us, rfl⟩ : ∃ us, ts = .rpar :: us := by
      cases ts with
      | nil => cases hh
      | cons u us => exact ⟨us, by rw [Option.some.inj hh]⟩
    simp only [parseStep, Option.some.injEq, Prod.mk.injEq] at h
    obtain ⟨rfl, rfl⟩ := h
    exact ⟨ev0 (fun rec => rfl), safe_tail hs, safe_next hs⟩
  · by_cases ha : noAssign ts = true
    · cases kws with
      | cons k kws =>
        have : parseStep rec (.args f acc (k :: kws)) ts = none := by
          cases ts with
          | nil => rfl
          | cons t us =>
            cases t with
            | rpar => exact absurd rfl hh
            | name x =>
              cases us with
              | nil => rfl
              | cons u us => cases u <;> first | rfl | (simp [noAssign] at ha)
            | _ => rfl
        rw [this] at h
        cases h
      | nil =>
        rw [parse_args_pos rec ha hh] at h
        have hf := fill_head hσ rfl hh
        have hfa := noAssign_fill hσ hs ha
        cases h1 : rec .expr ts with
        | none => rw [h1] at h; cases h
        | some r =>
          obtain ⟨b, us⟩ := r
          have g1 := IH .expr ts b us hs rfl h1
          rw [h1] at h
          simp only [Option.bind_some] at h
          split at h
          · next vs =>
            split at h
            · next hacc =>
              cases h2 : rec (.comp .gen [b]) vs with
              | none => rw [h2] at h; cases h
              | some r =>
                obtain ⟨g, ws⟩ := r
                have g2 := IH (.comp _ _) vs g ws (safe_tail g1.safe) (safe_next g1.safe) h2
                rw [h2] at h
                simp only [Option.bind_some, Option.some.injEq, Prod.mk.injEq] at h
                obtain ⟨rfl, rfl⟩ := h
                refine ⟨ev2 g1.ev g2.ev (fun rec r1 r2 => ?_), g2.safe, g2.noPh⟩
                simp only [fillM, fillAs] at r1 r2 ⊢
                rw [show fill σ (.for_ :: vs) = .for_ :: fill σ vs from rfl] at r1
                rw [parse_args_pos rec hfa hf, r1]
                have hacc' : (fillAs σ acc).isEmpty = true := by
                  cases acc with
                  | nil => rfl
                  | cons x xs => cases hacc
                simp only [Option.bind_some, hacc', if_true, r2, fillA, fillAs]
            · cases h
          · next n2 =>
            have g2 := IH _ us a rest g1.safe (by exact g1.noPh) h
            refine ⟨ev2 g1.ev g2.ev (fun rec r1 r2 => ?_), g2.safe, g2.noPh⟩
            simp only [fillM, fillAs_snoc] at r1 r2 ⊢
            rw [parse_args_pos rec hfa hf, r1]
            simp only [Option.bind_some]
            split
            · next he => obtain ⟨w, e, _⟩ := noPh_cons g1.noPh he; exact (n2 w e).elim
            · exact r2
    · obtain ⟨k, us, rfl⟩ : ∃ k us, ts = .name k :: .assign :: us := by
        unfold noAssign at ha
        split at ha
        · exact ⟨_, _, rfl⟩
        · exact absurd rfl ha
      simp only [noPhKw, Option.isNone_iff_eq_none] at hp
      have e1 : fill σ (.name k :: .assign :: us) = .name k :: .assign :: fill σ us := by
        rw [fill_cons, fill_cons]
        simp [fillTok, hp]
      simp only [parseStep] at h
      split at h
      · cases h
      · next hc =>
        cases h1 : rec .expr us with
        | none => rw [h1] at h; cases h
        | some r =>
          obtain ⟨b, vs⟩ := r
          have g1 := IH .expr us b vs (safe_tail (safe_tail hs)) rfl h1
          rw [h1] at h
          simp only [Option.bind_some] at h
          have g2 := IH _ vs a rest g1.safe (by exact g1.noPh) h
          refine ⟨ev2 g1.ev g2.ev (fun rec r1 r2 => ?_), g2.safe, g2.noPh⟩
          simp only [fillM, fillAs_snoc] at r1 r2 ⊢
          rw [e1]
          simp only [parseStep]
          rw [if_neg hc, r1]
          exact r2

end

/-- What is read from tokens stays the same when codes are put in the place of names. -/
theorem parse_fill {σ : Fill} (hσ : Fills σ) (n : Nat) : ∀ (m : Mode) (ts : List Tok) (a : Ast) (rest : List Tok),
    safe σ ts = true → pre σ m ts = true → parse n m ts = some (a, rest) → Stays σ m ts a rest := by
  induction n with
  | zero => intro m ts a rest _ _ h; cases h
  | succ n ih =>
    intro m ts a rest hs hp h
    have h' : parseStep (parse n) m ts = some (a, rest) := h
    cases m with
    | expr => exact good_expr ih hs h'
    | or => exact good_two ih (m2 := fun a => .orMore [a]) (fun _ _ => rfl) rfl rfl (fun _ => rfl) hs rfl (fun _ _ h => h) h'
    | and => exact good_two ih (m2 := fun a => .andMore [a]) (fun _ _ => rfl) rfl rfl (fun _ => rfl) hs rfl (fun _ _ h => h) h'
    | cmp => exact good_two ih (m2 := fun a => .cmpMore a [] []) (fun _ _ => rfl) rfl rfl (fun _ => rfl) hs rfl (fun _ _ h => h) h'
    | arith => exact good_two ih (m2 := fun a => .arithMore a) (fun _ _ => rfl) rfl rfl (fun _ => rfl) hs rfl (fun _ _ h => h) h'
    | term => exact good_two ih (m2 := fun a => .termMore a) (fun _ _ => rfl) rfl rfl (fun _ => rfl) hs rfl (fun _ _ h => h) h'
    | orMore acc => exact good_orMore ih hs hp h'
    | andMore acc => exact good_andMore ih hs hp h'
    | not => exact good_not hσ ih hs h'
    | cmpMore a os bs => exact good_cmpMore hσ ih hs hp h'
    | arithMore a => exact good_arithMore ih hs hp h'
    | termMore a => exact good_termMore ih hs hp h'
    | factor => exact good_factor hσ ih rfl hs h'
    | primary => exact good_primary hσ ih hs hp h'
    | trailers a => exact good_trailers ih hs hp h'
    | args f acc kws => exact good_args hσ ih hs hp h'
    | argsMore f acc kws => exact good_argsMore ih hs h'
    | paren => exact good_paren hσ ih hs h'
    | brack => exact good_brack hσ ih hs h'
    | brace => exact good_brace hσ ih hs h'
    | items k acc => exact good_items hσ ih hs h'
    | pairs acc => exact good_pairs hσ ih hs h'
    | comp k elt => exact good_comp ih hs hp h'

end Verif.Text
