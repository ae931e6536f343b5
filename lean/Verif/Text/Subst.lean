import Verif.Text.ParseMono
import Verif.Text.ParseRules

/-!
# Text: codes in the place of names

How Python reads a template into which the codes of other expressions have been put.  Templates of the library are
read with names in the place of these codes; reading is then transferred to the codes.  Nothing here is code of the
repository.
-/

set_option autoImplicit false

namespace Verif.Text

/-- For some names: the tokens of a code, its tree, and whether lookups and calls may follow it. -/
abbrev Fill := String → Option (List Tok × Ast × Bool)

/-- The codes are read as their trees. -/
def Fills (σ : Fill) : Prop := ∀ x ts a b, σ x = some (ts, a, b) → Rd ts a ∧ (b = true → Pr ts a)

/-- The tokens of the code of a name. -/
def fillTok (σ : Fill) : Tok → List Tok
  | .name x =>
    match σ x with
    | some p => p.1
    | none => [.name x]
  | t => [t]

/-- Codes in the place of names. -/
def fill (σ : Fill) (ts : List Tok) : List Tok := ts.flatMap (fillTok σ)

mutual

/-- Trees in the place of names. -/
def fillA (σ : Fill) : Ast → Ast
  | .name x =>
    match σ x with
    | some p => p.2.1
    | none => .name x
  | .num n => .num n
  | .str s => .str s
  | .attr a s => .attr (fillA σ a) s
  | .sub a b => .sub (fillA σ a) (fillA σ b)
  | .call f as ks => .call (fillA σ f) (fillAs σ as) ks
  | .neg a => .neg (fillA σ a)
  | .bin o a b => .bin o (fillA σ a) (fillA σ b)
  | .cmp a os bs => .cmp (fillA σ a) os (fillAs σ bs)
  | .not a => .not (fillA σ a)
  | .bool k as => .bool k (fillAs σ as)
  | .ifexp a b c => .ifexp (fillA σ a) (fillA σ b) (fillA σ c)
  | .display k as => .display k (fillAs σ as)
  | .comp k es v it cs => .comp k (fillAs σ es) v (fillA σ it) (fillAs σ cs)

/-- The same for lists. -/
def fillAs (σ : Fill) : List Ast → List Ast
  | [] => []
  | a :: as => fillA σ a :: fillAs σ as

end

/-- The same for what the parser is about to read. -/
def fillM (σ : Fill) : Mode → Mode
  | .orMore acc => .orMore (fillAs σ acc)
  | .andMore acc => .andMore (fillAs σ acc)
  | .cmpMore a os bs => .cmpMore (fillA σ a) os (fillAs σ bs)
  | .arithMore a => .arithMore (fillA σ a)
  | .termMore a => .termMore (fillA σ a)
  | .trailers a => .trailers (fillA σ a)
  | .args f acc ks => .args (fillA σ f) (fillAs σ acc) ks
  | .argsMore f acc ks => .argsMore (fillA σ f) (fillAs σ acc) ks
  | .items k acc => .items k (fillAs σ acc)
  | .pairs acc => .pairs (fillAs σ acc)
  | .comp k elt => .comp k (fillAs σ elt)
  | .expr => .expr
  | .or => .or
  | .and => .and
  | .not => .not
  | .cmp => .cmp
  | .arith => .arith
  | .term => .term
  | .factor => .factor
  | .primary => .primary
  | .paren => .paren
  | .brack => .brack
  | .brace => .brace

/-- The first token does not stand for a code. -/
def noPh (σ : Fill) : List Tok → Bool
  | .name x :: _ => (σ x).isNone
  | _ => true

/-- No lookup and no call. -/
def noTrailer : List Tok → Bool
  | .dot :: _ => false
  | .lbr :: _ => false
  | .lpar :: _ => false
  | _ => true

/-- Not the name of a keyword argument which stands for a code. -/
def noPhKw (σ : Fill) : List Tok → Bool
  | .name x :: .assign :: _ => (σ x).isNone
  | _ => true

/-- What may follow a token: codes stand only where operands are expected. -/
def okNext (σ : Fill) (t : Tok) (ts : List Tok) : Bool :=
  match t with
  | .for_ => noPh σ ts
  | .dot => noPh σ ts
  | .name x =>
    noPh σ ts &&
      match σ x with
      | some (_, _, false) => noTrailer ts
      | _ => true
  | .num _ => noPh σ ts
  | .str _ => noPh σ ts
  | .rpar => noPh σ ts
  | .rbr => noPh σ ts
  | .rcu => noPh σ ts
  | .lpar => noPhKw σ ts
  | .comma => noPhKw σ ts
  | _ => true

/-- `okNext` everywhere. -/
def safe (σ : Fill) : List Tok → Bool
  | [] => true
  | t :: ts => okNext σ t ts && safe σ ts

/-- Where a code may come first. -/
def pre (σ : Fill) : Mode → List Tok → Bool
  | .orMore _, ts => noPh σ ts
  | .andMore _, ts => noPh σ ts
  | .cmpMore _ _ _, ts => noPh σ ts
  | .arithMore _, ts => noPh σ ts
  | .termMore _, ts => noPh σ ts
  | .trailers _, ts => noPh σ ts
  | .argsMore _ _ _, ts => noPh σ ts
  | .args _ _ _, ts => noPhKw σ ts
  | .primary, .name x :: _ =>
    match σ x with
    | some (_, _, false) => false
    | _ => true
  | .comp _ _, ts => noPh σ ts
  | _, _ => true

theorem fillAs_map (σ : Fill) (as : List Ast) : fillAs σ as = as.map (fillA σ) := by
  induction as with
  | nil => rfl
  | cons a as ih => simp [fillAs, ih]

theorem fillAs_snoc (σ : Fill) (as : List Ast) (a : Ast) : fillAs σ (as ++ [a]) = fillAs σ as ++ [fillA σ a] := by
  simp [fillAs_map]

theorem fill_mkBool (σ : Fill) (k : Bool) (as : List Ast) : fillA σ (mkBool k as) = mkBool k (fillAs σ as) := by
  rcases as with _ | ⟨a, _ | ⟨b, as⟩⟩ <;> simp [mkBool, fillA, fillAs]

theorem fill_mkCmp (σ : Fill) (a : Ast) (os : List Cmp) (bs : List Ast) :
    fillA σ (mkCmp a os bs) = mkCmp (fillA σ a) os (fillAs σ bs) := by
  unfold mkCmp
  split <;> simp [fillA]

theorem fill_cons (σ : Fill) (t : Tok) (ts : List Tok) : fill σ (t :: ts) = fillTok σ t ++ fill σ ts := by
  simp [fill]

/-- The first token after filling. -/
theorem fill_head {σ : Fill} (hσ : Fills σ) {ts : List Tok} {t : Tok} (ht : startTok t = false)
    (h : ts.head? ≠ some t) : (fill σ ts).head? ≠ some t := by
  cases ts with
  | nil => simpa [fill] using h
  | cons u ts =>
    rw [fill_cons]
    cases u with
    | name x =>
      simp only [fillTok]
      cases hx : σ x with
      | none => simpa using h
      | some p =>
        obtain ⟨us, a, b⟩ := p
        obtain ⟨v, l, e, hv⟩ := (hσ x us a b hx).1.start
        subst e
        simp only [List.cons_append, List.head?_cons, ne_eq, Option.some.injEq]
        rintro rfl
        rw [hv] at ht
        cases ht
    | _ => simpa [fillTok] using h

theorem fill_noPh {σ : Fill} {t : Tok} {ts : List Tok} (h : noPh σ (t :: ts) = true) :
    fill σ (t :: ts) = t :: fill σ ts := by
  rw [fill_cons]
  cases t with
  | name x =>
    simp only [noPh, Option.isNone_iff_eq_none] at h
    simp [fillTok, h]
  | _ => rfl

/-- The first token after filling, when it does not stand for a code. -/
theorem noPh_cons {σ : Fill} {t : Tok} {ts us : List Tok} (h : noPh σ ts = true) (e : fill σ ts = t :: us) :
    ∃ ts', ts = t :: ts' ∧ fill σ ts' = us := by
  cases ts with
  | nil => cases e
  | cons u ts =>
    rw [fill_noPh h] at e
    obtain ⟨rfl, rfl⟩ := List.cons.inj e
    exact ⟨ts, rfl, rfl⟩

theorem noPh_head {σ : Fill} {ts : List Tok} (h : noPh σ ts = true) : (fill σ ts).head? = ts.head? := by
  cases ts with
  | nil => rfl
  | cons u ts => rw [fill_noPh h]; rfl

theorem addOp_fill {σ : Fill} {ts : List Tok} (h : noPh σ ts = true) :
    addOp (fill σ ts) = (addOp ts).map (fun p => (p.1, fill σ p.2)) := by
  cases ts with
  | nil => rfl
  | cons t ts => rw [fill_noPh h]; cases t <;> rfl

theorem mulOp_fill {σ : Fill} {ts : List Tok} (h : noPh σ ts = true) :
    mulOp (fill σ ts) = (mulOp ts).map (fun p => (p.1, fill σ p.2)) := by
  cases ts with
  | nil => rfl
  | cons t ts => rw [fill_noPh h]; cases t <;> rfl

theorem cmpOp_fill {σ : Fill} (hσ : Fills σ) {ts : List Tok} (h : noPh σ ts = true) :
    cmpOp (fill σ ts) = (cmpOp ts).map (fun p => (p.1, fill σ p.2)) := by
  cases ts with
  | nil => rfl
  | cons t ts =>
    rw [fill_noPh h]
    cases t with
    | is_ =>
      by_cases hn : ts.head? = some .not_
      · obtain ⟨us, rfl⟩ : ∃ us, ts = .not_ :: us := by
          cases ts with
          | nil => cases hn
          | cons u us => exact ⟨us, by rw [Option.some.inj hn]⟩
        rfl
      · have h1 := fill_head hσ (t := .not_) rfl hn
        have e : ∀ us : List Tok, us.head? ≠ some .not_ → cmpOp (.is_ :: us) = some (.is, us) := by
          intro us hu
          cases us with
          | nil => rfl
          | cons u us => cases u <;> first | rfl | exact absurd rfl hu
        rw [e _ hn, e _ h1]
        rfl
    | not_ =>
      by_cases hn : ts.head? = some .in_
      · obtain ⟨us, rfl⟩ : ∃ us, ts = .in_ :: us := by
          cases ts with
          | nil => cases hn
          | cons u us => exact ⟨us, by rw [Option.some.inj hn]⟩
        rfl
      · have h1 := fill_head hσ (t := .in_) rfl hn
        have e : ∀ us : List Tok, us.head? ≠ some .in_ → cmpOp (.not_ :: us) = none := by
          intro us hu
          cases us with
          | nil => rfl
          | cons u us => cases u <;> first | rfl | exact absurd rfl hu
        rw [e _ hn, e _ h1]
        rfl
    | _ => rfl

theorem expect_fill {σ : Fill} {t : Tok} {ts : List Tok} (h : noPh σ ts = true) :
    expect t (fill σ ts) = (expect t ts).map (fill σ) := by
  cases ts with
  | nil => rfl
  | cons u ts =>
    rw [fill_noPh h]
    simp only [expect]
    split <;> rfl

theorem expect_start {σ : Fill} (hσ : Fills σ) {t : Tok} (ht : startTok t = false) {ts : List Tok} :
    expect t (fill σ ts) = (expect t ts).map (fill σ) := by
  have e : ∀ us : List Tok, us.head? ≠ some t → expect t us = none := by
    intro us hu
    cases us with
    | nil => rfl
    | cons u us =>
      simp only [expect]
      rw [if_neg]
      rintro rfl
      exact hu rfl
  by_cases hn : ts.head? = some t
  · obtain ⟨us, rfl⟩ : ∃ us, ts = t :: us := by
      cases ts with
      | nil => cases hn
      | cons u us => exact ⟨us, by rw [Option.some.inj hn]⟩
    have : fill σ (t :: us) = t :: fill σ us := by
      rw [fill_cons]
      cases t <;> first | rfl | cases ht
    rw [this]
    simp [expect]
  · rw [e _ hn, e _ (fill_head hσ ht hn)]
    rfl

theorem startTok_close (k : Shape) : startTok k.close = false := by cases k <;> rfl

theorem expect_cons {t : Tok} {ts us : List Tok} (h : expect t ts = some us) : ts = t :: us := by
  cases ts with
  | nil => cases h
  | cons u ts =>
    simp only [expect] at h
    split at h
    · next he => rw [he, Option.some.inj h]
    · cases h

theorem safe_tail {σ : Fill} {t : Tok} {ts : List Tok} (h : safe σ (t :: ts) = true) : safe σ ts = true := by
  simp only [safe, Bool.and_eq_true] at h
  exact h.2

theorem safe_next {σ : Fill} {t : Tok} {ts : List Tok} (h : safe σ (t :: ts) = true) : okNext σ t ts = true := by
  simp only [safe, Bool.and_eq_true] at h
  exact h.1

theorem close_noPh {σ : Fill} {k : Shape} {ts : List Tok} (h : safe σ (k.close :: ts) = true) : noPh σ ts = true := by
  have := safe_next h
  cases k <;> exact this

end Verif.Text
