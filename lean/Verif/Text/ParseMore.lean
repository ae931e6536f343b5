import Verif.Text.ParseEnd
import Verif.Text.SubstParse

/-!
# Text: the parser and what follows

An expression which is read up to its closing bracket is read in the same way whatever follows the bracket.  Nothing here
is code of the repository.
-/

set_option autoImplicit false

namespace Verif.Text

/-- Modes which end with a closing bracket. -/
def closing : Mode → Bool
  | .args _ _ _ => true
  | .argsMore _ _ _ => true
  | .paren => true
  | .brack => true
  | .brace => true
  | .items _ _ => true
  | .pairs _ => true
  | .comp _ _ => true
  | _ => false

/-- A token remains, and not only one which could begin `not in`. -/
def stops : List Tok → Bool
  | [] => false
  | [.not_] => false
  | _ => true

/-- More tokens behind do not change what is read. -/
def More (rec : P) : Prop :=
  ∀ m ts a rest us, rec m ts = some (a, rest) → (closing m || stops rest) = true → rec m (ts ++ us) = some (a, rest ++ us)

theorem stops_two (t u : Tok) (ts : List Tok) : stops (t :: u :: ts) = true := by cases t <;> rfl

theorem stops_one {t : Tok} (h : t ≠ .not_) (ts : List Tok) : stops (t :: ts) = true := by
  cases ts with
  | nil => cases t <;> first | rfl | exact absurd rfl h
  | cons u ts => exact stops_two t u ts

theorem stops_append (pre : List Tok) {rest : List Tok} (hs : stops rest = true) : stops (pre ++ rest) = true := by
  match pre with
  | [] => exact hs
  | [t] =>
    cases rest with
    | nil => cases hs
    | cons u rest => exact stops_two t u rest
  | t :: u :: pre => exact stops_two t u _

theorem stops_of {s : Bool} {ts rest : List Tok} (h : Eats s ts rest) (hs : stops rest = true) : stops ts = true := by
  obtain ⟨pre, rfl, _, _⟩ := h
  exact stops_append pre hs

theorem stops_rest {rec : P} (hg : Good rec) {m : Mode} {ts : List Tok} {a : Ast} {rest : List Tok} (h : rec m ts = some (a, rest))
    (hs : stops rest = true) : stops ts = true := stops_of (hg _ _ _ _ h) hs

theorem not_nil {rec : P} (hg : Good rec) {m : Mode} (hm : strict m = true) {a : Ast} {rest : List Tok} (h : rec m [] = some (a, rest)) :
    False := by
  obtain ⟨pre, h1, h2, _⟩ := hg _ _ _ _ h
  have : pre = [] := by
    cases pre with
    | nil => rfl
    | cons x xs => cases h1
  rw [hm] at h2
  cases h2 this

theorem cmpOp_more {ts us : List Tok} {o : Cmp} (h : cmpOp ts = some (o, us)) (hu : us ≠ []) (vs : List Tok) :
    cmpOp (ts ++ vs) = some (o, us ++ vs) := by
  cases ts with
  | nil => cases h
  | cons t ts =>
    cases t <;> first
      | (cases h; rfl)
      | (cases h; done)
      | (cases ts with
          | nil => cases h <;> exact absurd rfl hu
          | cons u ts => cases u <;> first | (cases h; rfl) | (cases h; done))

theorem cmpOp_stop {ts : List Tok} (h : cmpOp ts = none) (hs : stops ts = true) (vs : List Tok) : cmpOp (ts ++ vs) = none := by
  match ts with
  | [] => cases hs
  | [t] => cases t <;> first | rfl | (cases h; done) | (cases hs; done)
  | t :: u :: ts => cases t <;> first | rfl | (cases h; done) | (cases u <;> first | rfl | (cases h; done))

theorem addOp_more {ts us : List Tok} {o : Arith} (h : addOp ts = some (o, us)) (vs : List Tok) :
    addOp (ts ++ vs) = some (o, us ++ vs) := by
  cases ts with
  | nil => cases h
  | cons t ts => cases t <;> first | (cases h; rfl) | (cases h; done)

theorem addOp_stop {ts : List Tok} (h : addOp ts = none) (hs : stops ts = true) (vs : List Tok) : addOp (ts ++ vs) = none := by
  cases ts with
  | nil => cases hs
  | cons t ts => cases t <;> first | rfl | (cases h; done)

theorem mulOp_more {ts us : List Tok} {o : Arith} (h : mulOp ts = some (o, us)) (vs : List Tok) :
    mulOp (ts ++ vs) = some (o, us ++ vs) := by
  cases ts with
  | nil => cases h
  | cons t ts => cases t <;> first | (cases h; rfl) | (cases h; done)

theorem mulOp_stop {ts : List Tok} (h : mulOp ts = none) (hs : stops ts = true) (vs : List Tok) : mulOp (ts ++ vs) = none := by
  cases ts with
  | nil => cases hs
  | cons t ts => cases t <;> first | rfl | (cases h; done)

theorem expect_more {t : Tok} {ts us : List Tok} (h : expect t ts = some us) (vs : List Tok) :
    expect t (ts ++ vs) = some (us ++ vs) := by
  rw [expect_cons h]
  simp [expect]

theorem expect_none {t : Tok} {ts : List Tok} (h : expect t ts = none) (hn : ts ≠ []) (vs : List Tok) :
    expect t (ts ++ vs) = none := by
  cases ts with
  | nil => exact absurd rfl hn
  | cons u ts =>
    simp only [expect, List.cons_append] at h ⊢
    split at h
    · cases h
    · next hne => rw [if_neg hne]

theorem close_stops (k : Shape) (ts : List Tok) : stops (k.close :: ts) = true := by cases k <;> exact stops_one (by simp [Shape.close]) ts

section
variable {rec : P} (hg : Good rec) (hm : More rec) {ts : List Tok} {a : Ast} {rest : List Tok} (us : List Tok)

include hm in
theorem more_expr (h : parseStep rec .expr ts = some (a, rest)) (hs : stops rest = true) :
    parseStep rec .expr (ts ++ us) = some (a, rest ++ us) := by
  simp only [parseStep, Option.bind_eq_some_iff, Prod.exists] at h
  obtain ⟨t, r1, h1, h⟩ := h
  split at h
  · next vs =>
    simp only [Option.bind_eq_some_iff, Prod.exists] at h
    obtain ⟨c, r2, h2, r3, h3, f, r4, h4, h⟩ := h
    cases h
    obtain rfl := expect_cons h3
    have e1 := hm _ _ _ _ us h1 (by rw [stops_one (by simp), Bool.or_true])
    have e2 := hm _ _ _ _ us h2 (by rw [stops_one (by simp), Bool.or_true])
    have e4 := hm _ _ _ _ us h4 hs
    simp only [List.cons_append] at e1 e2
    simp only [parseStep, e1, Option.bind_some, e2, expect, if_true, e4]
  · next hne =>
    cases h
    have e1 := hm _ _ _ _ us h1 hs
    simp only [parseStep, e1, Option.bind_some]
    cases rest with
    | nil => cases hs
    | cons u r1 =>
      simp only [List.cons_append]
      split
      · next he => cases he; exact (hne _ rfl).elim
      · rfl

include hg hm in
/-- Two parts, the second after the first. -/
theorem more_two {m m1 : Mode} {m2 : Ast → Mode} (he : ∀ rec ts, parseStep rec m ts = (rec m1 ts).bind fun p => rec (m2 p.1) p.2)
    (h : parseStep rec m ts = some (a, rest)) (hs : stops rest = true) : parseStep rec m (ts ++ us) = some (a, rest ++ us) := by
  rw [he, Option.bind_eq_some_iff] at h
  obtain ⟨⟨b, r1⟩, h1, h2⟩ := h
  have e1 := hm _ _ _ _ us h1 (by rw [stops_rest hg h2 hs, Bool.or_true])
  have e2 := hm _ _ _ _ us h2 (by rw [hs, Bool.or_true])
  rw [he, e1]
  exact e2

include hg hm in
theorem more_orMore {acc : List Ast} (h : parseStep rec (.orMore acc) ts = some (a, rest)) (hs : stops rest = true) :
    parseStep rec (.orMore acc) (ts ++ us) = some (a, rest ++ us) := by
  simp only [parseStep] at h
  split at h
  · next vs =>
    simp only [Option.bind_eq_some_iff, Prod.exists] at h
    obtain ⟨b, r1, h1, h2⟩ := h
    have e1 := hm _ _ _ _ us h1 (by rw [stops_rest hg h2 hs, Bool.or_true])
    have e2 := hm _ _ _ _ us h2 hs
    simp only [parseStep, List.cons_append, e1, Option.bind_some, e2]
  · next hne =>
    cases h
    cases ts with
    | nil => cases hs
    | cons u r1 =>
      simp only [parseStep, List.cons_append]
      split
      · next he => cases he; exact (hne _ rfl).elim
      · rfl

include hg hm in
theorem more_andMore {acc : List Ast} (h : parseStep rec (.andMore acc) ts = some (a, rest)) (hs : stops rest = true) :
    parseStep rec (.andMore acc) (ts ++ us) = some (a, rest ++ us) := by
  simp only [parseStep] at h
  split at h
  · next vs =>
    simp only [Option.bind_eq_some_iff, Prod.exists] at h
    obtain ⟨b, r1, h1, h2⟩ := h
    have e1 := hm _ _ _ _ us h1 (by rw [stops_rest hg h2 hs, Bool.or_true])
    have e2 := hm _ _ _ _ us h2 hs
    simp only [parseStep, List.cons_append, e1, Option.bind_some, e2]
  · next hne =>
    cases h
    cases ts with
    | nil => cases hs
    | cons u r1 =>
      simp only [parseStep, List.cons_append]
      split
      · next he => cases he; exact (hne _ rfl).elim
      · rfl

include hg hm in
theorem more_not (h : parseStep rec .not ts = some (a, rest)) (hs : stops rest = true) :
    parseStep rec .not (ts ++ us) = some (a, rest ++ us) := by
  simp only [parseStep] at h
  split at h
  · next vs =>
    simp only [Option.bind_eq_some_iff, Prod.exists] at h
    obtain ⟨b, r1, h1, h2⟩ := h
    cases h2
    have e1 := hm _ _ _ _ us h1 hs
    simp only [parseStep, List.cons_append, e1, Option.bind_some]
  · next hne =>
    have e1 := hm _ _ _ _ us h hs
    cases ts with
    | nil => exact (not_nil hg rfl h).elim
    | cons u r1 =>
      simp only [List.cons_append] at e1
      simp only [parseStep, List.cons_append]
      split
      · next he => cases he; exact (hne _ rfl).elim
      · exact e1

include hg hm in
theorem more_factor (h : parseStep rec .factor ts = some (a, rest)) (hs : stops rest = true) :
    parseStep rec .factor (ts ++ us) = some (a, rest ++ us) := by
  simp only [parseStep] at h
  split at h
  · next vs =>
    simp only [Option.bind_eq_some_iff, Prod.exists] at h
    obtain ⟨b, r1, h1, h2⟩ := h
    cases h2
    have e1 := hm _ _ _ _ us h1 hs
    simp only [parseStep, List.cons_append, e1, Option.bind_some]
  · next hne =>
    have e1 := hm _ _ _ _ us h hs
    cases ts with
    | nil => exact (not_nil hg rfl h).elim
    | cons u r1 =>
      simp only [List.cons_append] at e1
      simp only [parseStep, List.cons_append]
      split
      · next he => cases he; exact (hne _ rfl).elim
      · exact e1

include hg hm in
theorem more_cmpMore {x : Ast} {os : List Cmp} {bs : List Ast} (h : parseStep rec (.cmpMore x os bs) ts = some (a, rest))
    (hs : stops rest = true) : parseStep rec (.cmpMore x os bs) (ts ++ us) = some (a, rest ++ us) := by
  simp only [parseStep] at h
  cases ho : cmpOp ts with
  | none =>
    rw [ho] at h
    cases h
    simp only [parseStep, cmpOp_stop ho hs us]
  | some p =>
    obtain ⟨o, vs⟩ := p
    rw [ho] at h
    simp only [Option.bind_eq_some_iff, Prod.exists] at h
    obtain ⟨b, r1, h1, h2⟩ := h
    have hv : vs ≠ [] := by
      rintro rfl
      exact not_nil hg rfl h1
    have e1 := hm _ _ _ _ us h1 (by rw [stops_rest hg h2 hs, Bool.or_true])
    have e2 := hm _ _ _ _ us h2 hs
    simp only [parseStep, cmpOp_more ho hv us, e1, Option.bind_some, e2]

include hg hm in
theorem more_arithMore {x : Ast} (h : parseStep rec (.arithMore x) ts = some (a, rest))
    (hs : stops rest = true) : parseStep rec (.arithMore x) (ts ++ us) = some (a, rest ++ us) := by
  simp only [parseStep] at h
  cases ho : addOp ts with
  | none =>
    rw [ho] at h
    cases h
    simp only [parseStep, addOp_stop ho hs us]
  | some p =>
    obtain ⟨o, vs⟩ := p
    rw [ho] at h
    simp only [Option.bind_eq_some_iff, Prod.exists] at h
    obtain ⟨b, r1, h1, h2⟩ := h
    have e1 := hm _ _ _ _ us h1 (by rw [stops_rest hg h2 hs, Bool.or_true])
    have e2 := hm _ _ _ _ us h2 hs
    simp only [parseStep, addOp_more ho us, e1, Option.bind_some, e2]

include hg hm in
theorem more_termMore {x : Ast} (h : parseStep rec (.termMore x) ts = some (a, rest))
    (hs : stops rest = true) : parseStep rec (.termMore x) (ts ++ us) = some (a, rest ++ us) := by
  simp only [parseStep] at h
  cases ho : mulOp ts with
  | none =>
    rw [ho] at h
    cases h
    simp only [parseStep, mulOp_stop ho hs us]
  | some p =>
    obtain ⟨o, vs⟩ := p
    rw [ho] at h
    simp only [Option.bind_eq_some_iff, Prod.exists] at h
    obtain ⟨b, r1, h1, h2⟩ := h
    have e1 := hm _ _ _ _ us h1 (by rw [stops_rest hg h2 hs, Bool.or_true])
    have e2 := hm _ _ _ _ us h2 hs
    simp only [parseStep, mulOp_more ho us, e1, Option.bind_some, e2]

include hg hm in
theorem more_primary (h : parseStep rec .primary ts = some (a, rest)) (hs : stops rest = true) :
    parseStep rec .primary (ts ++ us) = some (a, rest ++ us) := by
  simp only [parseStep] at h
  split at h
  · exact hm _ _ _ _ us h hs
  · exact hm _ _ _ _ us h hs
  · exact hm _ _ _ _ us h hs
  · simp only [Option.bind_eq_some_iff, Prod.exists] at h
    obtain ⟨b, r1, h1, h2⟩ := h
    have e1 := hm _ _ _ _ us h1 rfl
    have e2 := hm _ _ _ _ us h2 hs
    simp only [parseStep, List.cons_append, e1, Option.bind_some, e2]
  · simp only [Option.bind_eq_some_iff, Prod.exists] at h
    obtain ⟨b, r1, h1, h2⟩ := h
    have e1 := hm _ _ _ _ us h1 rfl
    have e2 := hm _ _ _ _ us h2 hs
    simp only [parseStep, List.cons_append, e1, Option.bind_some, e2]
  · simp only [Option.bind_eq_some_iff, Prod.exists] at h
    obtain ⟨b, r1, h1, h2⟩ := h
    have e1 := hm _ _ _ _ us h1 rfl
    have e2 := hm _ _ _ _ us h2 hs
    simp only [parseStep, List.cons_append, e1, Option.bind_some, e2]
  · cases h

include hg hm in
theorem more_trailers {x : Ast} (h : parseStep rec (.trailers x) ts = some (a, rest)) (hs : stops rest = true) :
    parseStep rec (.trailers x) (ts ++ us) = some (a, rest ++ us) := by
  simp only [parseStep] at h
  split at h
  · split at h
    · split at h
      · cases h
      · next hc =>
        have e1 := hm _ _ _ _ us h hs
        simp only [parseStep, List.cons_append]
        rw [if_neg hc]
        exact e1
    · cases h
  · simp only [Option.bind_eq_some_iff, Prod.exists] at h
    obtain ⟨b, r1, h1, r2, h2, h3⟩ := h
    obtain rfl := expect_cons h2
    have e1 := hm _ _ _ _ us h1 (by rw [stops_one (by simp), Bool.or_true])
    have e3 := hm _ _ _ _ us h3 hs
    simp only [List.cons_append] at e1
    simp only [parseStep, List.cons_append, e1, Option.bind_some, expect, if_true, e3]
  · simp only [Option.bind_eq_some_iff, Prod.exists] at h
    obtain ⟨b, r1, h1, h2⟩ := h
    have e1 := hm _ _ _ _ us h1 rfl
    have e2 := hm _ _ _ _ us h2 hs
    simp only [parseStep, List.cons_append, e1, Option.bind_some, e2]
  · next n1 n2 n3 =>
    cases h
    cases ts with
    | nil => cases hs
    | cons u r1 =>
      simp only [parseStep, List.cons_append]
      split
      · next he => cases he; exact (n1 _ rfl).elim
      · next he => cases he; exact (n2 _ rfl).elim
      · next he => cases he; exact (n3 _ rfl).elim
      · rfl

include hm in
theorem more_itemsNext {k : Shape} {acc : List Ast} (h : itemsNext rec k acc ts = some (a, rest)) :
    itemsNext rec k acc (ts ++ us) = some (a, rest ++ us) ∧ stops ts = true := by
  unfold itemsNext at h
  split at h
  · next vs =>
    exact ⟨hm _ _ _ _ us h rfl, stops_one (by simp) _⟩
  · next hne =>
    simp only [Option.map_eq_some_iff, Prod.mk.injEq] at h
    obtain ⟨r, h1, rfl, rfl⟩ := h
    obtain rfl := expect_cons h1
    refine ⟨?_, close_stops k _⟩
    cases k <;> rfl

include hm in
theorem more_pairsNext {acc : List Ast} (h : pairsNext rec acc ts = some (a, rest)) :
    pairsNext rec acc (ts ++ us) = some (a, rest ++ us) ∧ stops ts = true := by
  unfold pairsNext at h
  split at h
  · next vs => exact ⟨hm _ _ _ _ us h rfl, stops_one (by simp) _⟩
  · cases h
    exact ⟨rfl, stops_one (by simp) _⟩
  · cases h

include hm in
theorem more_comp {k : Shape} {elt : List Ast} (h : parseStep rec (.comp k elt) ts = some (a, rest)) :
    parseStep rec (.comp k elt) (ts ++ us) = some (a, rest ++ us) := by
  simp only [parseStep] at h
  split at h
  · next v vs =>
    split at h
    · cases h
    · next hc =>
      simp only [Option.bind_eq_some_iff, Prod.exists] at h
      obtain ⟨it, r1, h1, h⟩ := h
      split at h
      · simp only [Option.bind_eq_some_iff, Prod.exists, Option.map_eq_some_iff, Prod.mk.injEq] at h
        obtain ⟨c, r2, h2, r3, h3, rfl, rfl⟩ := h
        obtain rfl := expect_cons h3
        have e1 := hm _ _ _ _ us h1 (by rw [stops_one (by simp), Bool.or_true])
        have e2 := hm _ _ _ _ us h2 (by rw [close_stops, Bool.or_true])
        simp only [List.cons_append] at e1 e2
        simp only [parseStep, List.cons_append]
        rw [if_neg hc, e1]
        simp only [Option.bind_some, e2, expect, if_true, Option.map_some]
      · next hne =>
        simp only [Option.map_eq_some_iff, Prod.mk.injEq] at h
        obtain ⟨r3, h3, rfl, rfl⟩ := h
        obtain rfl := expect_cons h3
        have e1 := hm _ _ _ _ us h1 (by rw [close_stops, Bool.or_true])
        simp only [List.cons_append] at e1
        simp only [parseStep, List.cons_append]
        rw [if_neg hc, e1]
        simp only [Option.bind_some]
        split
        · next he => cases k <;> cases he
        · simp only [expect, if_true, Option.map_some]
  · cases h

/-- Something is in front of what is added. -/
theorem head_more (hn : ts ≠ []) {t : Tok} (h : ts.head? ≠ some t) : (ts ++ us).head? ≠ some t := by
  cases ts with
  | nil => exact absurd rfl hn
  | cons u ts => exact h

theorem head_eq {t : Tok} (h : ts.head? = some t) : ∃ vs, ts = t :: vs := by
  cases ts with
  | nil => cases h
  | cons u ts => exact ⟨ts, by rw [Option.some.inj h]⟩

include hg hm in
theorem more_paren (h : parseStep rec .paren ts = some (a, rest)) : parseStep rec .paren (ts ++ us) = some (a, rest ++ us) := by
  by_cases hh : ts.head? = some .rpar
  · obtain ⟨vs, rfl⟩ := head_eq hh
    cases h
    rfl
  · rw [paren_step rec hh] at h
    simp only [Option.bind_eq_some_iff, Prod.exists] at h
    obtain ⟨b, r1, h1, h⟩ := h
    have hn : ts ≠ [] := by
      rintro rfl
      exact not_nil hg rfl h1
    rw [paren_step rec (head_more us hn hh)]
    split at h
    · cases h
      have e1 := hm _ _ _ _ us h1 (by rw [stops_one (by simp), Bool.or_true])
      rw [e1]
      rfl
    · have e1 := hm _ _ _ _ us h1 (by rw [stops_one (by simp), Bool.or_true])
      have e2 := hm _ _ _ _ us h rfl
      rw [e1]
      exact e2
    · next n1 n2 =>
      obtain ⟨e2, hs⟩ := more_itemsNext hm us h
      have e1 := hm _ _ _ _ us h1 (by rw [hs, Bool.or_true])
      rw [e1]
      simp only [Option.bind_some]
      cases r1 with
      | nil => cases hs
      | cons u r1 =>
        simp only [List.cons_append] at e2 ⊢
        split
        · next he => cases he; exact (n1 _ rfl).elim
        · next he => cases he; exact (n2 _ rfl).elim
        · exact e2

include hg hm in
theorem more_brack (h : parseStep rec .brack ts = some (a, rest)) : parseStep rec .brack (ts ++ us) = some (a, rest ++ us) := by
  by_cases hh : ts.head? = some .rbr
  · obtain ⟨vs, rfl⟩ := head_eq hh
    cases h
    rfl
  · rw [brack_step rec hh] at h
    simp only [Option.bind_eq_some_iff, Prod.exists] at h
    obtain ⟨b, r1, h1, h⟩ := h
    have hn : ts ≠ [] := by
      rintro rfl
      exact not_nil hg rfl h1
    rw [brack_step rec (head_more us hn hh)]
    split at h
    · have e1 := hm _ _ _ _ us h1 (by rw [stops_one (by simp), Bool.or_true])
      have e2 := hm _ _ _ _ us h rfl
      rw [e1]
      exact e2
    · next n2 =>
      obtain ⟨e2, hs⟩ := more_itemsNext hm us h
      have e1 := hm _ _ _ _ us h1 (by rw [hs, Bool.or_true])
      rw [e1]
      simp only [Option.bind_some]
      cases r1 with
      | nil => cases hs
      | cons u r1 =>
        simp only [List.cons_append] at e2 ⊢
        split
        · next he => cases he; exact (n2 _ rfl).elim
        · exact e2

include hg hm in
theorem more_brace (h : parseStep rec .brace ts = some (a, rest)) : parseStep rec .brace (ts ++ us) = some (a, rest ++ us) := by
  by_cases hh : ts.head? = some .rcu
  · obtain ⟨vs, rfl⟩ := head_eq hh
    cases h
    rfl
  · rw [brace_step rec hh] at h
    simp only [Option.bind_eq_some_iff, Prod.exists] at h
    obtain ⟨b, r1, h1, h⟩ := h
    have hn : ts ≠ [] := by
      rintro rfl
      exact not_nil hg rfl h1
    rw [brace_step rec (head_more us hn hh)]
    split at h
    · simp only [Option.bind_eq_some_iff, Prod.exists] at h
      obtain ⟨c, r2, h2, h⟩ := h
      have e1 := hm _ _ _ _ us h1 (by rw [stops_one (by simp), Bool.or_true])
      rw [e1]
      simp only [Option.bind_some, List.cons_append]
      split at h
      · have e2 := hm _ _ _ _ us h2 (by rw [stops_one (by simp), Bool.or_true])
        have e3 := hm _ _ _ _ us h rfl
        rw [e2]
        exact e3
      · next n2 =>
        obtain ⟨e3, hs⟩ := more_pairsNext hm us h
        have e2 := hm _ _ _ _ us h2 (by rw [hs, Bool.or_true])
        rw [e2]
        simp only [Option.bind_some]
        cases r2 with
        | nil => cases hs
        | cons u r2 =>
          simp only [List.cons_append] at e3 ⊢
          split
          · next he => cases he; exact (n2 _ rfl).elim
          · exact e3
    · have e1 := hm _ _ _ _ us h1 (by rw [stops_one (by simp), Bool.or_true])
      have e2 := hm _ _ _ _ us h rfl
      rw [e1]
      exact e2
    · next n1 n2 =>
      obtain ⟨e2, hs⟩ := more_itemsNext hm us h
      have e1 := hm _ _ _ _ us h1 (by rw [hs, Bool.or_true])
      rw [e1]
      simp only [Option.bind_some]
      cases r1 with
      | nil => cases hs
      | cons u r1 =>
        simp only [List.cons_append] at e2 ⊢
        split
        · next he => cases he; exact (n1 _ rfl).elim
        · next he => cases he; exact (n2 _ rfl).elim
        · exact e2

include hg hm in
theorem more_items {k : Shape} {acc : List Ast} (h : parseStep rec (.items k acc) ts = some (a, rest)) :
    parseStep rec (.items k acc) (ts ++ us) = some (a, rest ++ us) := by
  simp only [parseStep] at h
  cases he : expect k.close ts with
  | some r =>
    rw [he] at h
    cases h
    simp only [parseStep, expect_more he us]
  | none =>
    rw [he] at h
    simp only [Option.bind_eq_some_iff, Prod.exists] at h
    obtain ⟨b, r1, h1, h⟩ := h
    have hn : ts ≠ [] := by
      rintro rfl
      exact not_nil hg rfl h1
    obtain ⟨e2, hs⟩ := more_itemsNext hm us h
    have e1 := hm _ _ _ _ us h1 (by rw [hs, Bool.or_true])
    simp only [parseStep, expect_none he hn us, e1, Option.bind_some, e2]

include hg hm in
theorem more_pairs {acc : List Ast} (h : parseStep rec (.pairs acc) ts = some (a, rest)) :
    parseStep rec (.pairs acc) (ts ++ us) = some (a, rest ++ us) := by
  by_cases hh : ts.head? = some .rcu
  · obtain ⟨vs, rfl⟩ := head_eq hh
    cases h
    rfl
  · rw [pairs_step rec acc hh] at h
    simp only [Option.bind_eq_some_iff, Prod.exists] at h
    obtain ⟨b, r1, h1, r2, h2, c, r3, h3, h⟩ := h
    have hn : ts ≠ [] := by
      rintro rfl
      exact not_nil hg rfl h1
    obtain rfl := expect_cons h2
    obtain ⟨e4, hs⟩ := more_pairsNext hm us h
    have e1 := hm _ _ _ _ us h1 (by rw [stops_one (by simp), Bool.or_true])
    have e3 := hm _ _ _ _ us h3 (by rw [hs, Bool.or_true])
    simp only [List.cons_append] at e1
    rw [pairs_step rec acc (head_more us hn hh), e1]
    simp only [Option.bind_some, expect, if_true, e3, e4]

include hm in
theorem more_argsMore {f : Ast} {acc : List Ast} {kws : List String} (h : parseStep rec (.argsMore f acc kws) ts = some (a, rest)) :
    parseStep rec (.argsMore f acc kws) (ts ++ us) = some (a, rest ++ us) := by
  simp only [parseStep] at h
  split at h
  · exact hm _ _ _ _ us h rfl
  · cases h
    rfl
  · cases h

theorem noAssign_more (hn : stops ts.tail = true) (h : noAssign ts = true) : noAssign (ts ++ us) = true := by
  match ts with
  | [] => cases hn
  | [t] => cases hn
  | t :: u :: ts => cases t <;> first | rfl | (cases u <;> first | rfl | (cases h; done))

include hg hm in
theorem more_args (hA : ∀ f acc kws ts r, rec (.argsMore f acc kws) ts = some r → stops ts = true) {f : Ast} {acc : List Ast}
    {kws : List String} (h : parseStep rec (.args f acc kws) ts = some (a, rest)) :
    parseStep rec (.args f acc kws) (ts ++ us) = some (a, rest ++ us) := by
  by_cases hh : ts.head? = some .rpar
  · obtain ⟨vs, rfl⟩ := head_eq hh
    cases h
    rfl
  · by_cases ha : noAssign ts = true
    · cases kws with
      | cons k kws =>
        have : parseStep rec (.args f acc (k :: kws)) ts = none := by
          cases ts with
          | nil => rfl
          | cons t us =>
            cases t with
            | rpar => exact absurd rfl hh
            | name x =>
              cases us with
              | nil => rfl
              | cons u us => cases u <;> first | rfl | (simp [noAssign] at ha)
            | _ => rfl
        rw [this] at h
        cases h
      | nil =>
        rw [parse_args_pos rec ha hh] at h
        simp only [Option.bind_eq_some_iff, Prod.exists] at h
        obtain ⟨b, r1, h1, h⟩ := h
        have hn : ts ≠ [] := by
          rintro rfl
          exact not_nil hg rfl h1
        have ht : stops r1 = true → noAssign (ts ++ us) = true := by
          intro hs
          obtain ⟨pre, rfl, hp, _⟩ := hg _ _ _ _ h1
          cases pre with
          | nil => cases hp rfl
          | cons p pre =>
            refine noAssign_more us ?_ ha
            exact stops_append pre hs
        split at h
        · next vs =>
          split at h
          · next hacc =>
            simp only [Option.bind_eq_some_iff, Prod.exists] at h
            obtain ⟨g, r2, h2, h⟩ := h
            cases h
            have hs1 : stops (.for_ :: vs) = true := stops_one (by simp) _
            have e1 := hm _ _ _ _ us h1 (by rw [hs1, Bool.or_true])
            have e2 := hm _ _ _ _ us h2 rfl
            rw [parse_args_pos rec (ht hs1) (head_more us hn hh), e1]
            simp only [List.cons_append, Option.bind_some]
            rw [if_pos hacc, e2]
            rfl
          · cases h
        · next n1 =>
          have hs1 := hA _ _ _ _ _ h
          have e1 := hm _ _ _ _ us h1 (by rw [hs1, Bool.or_true])
          have e2 := hm _ _ _ _ us h rfl
          rw [parse_args_pos rec (ht hs1) (head_more us hn hh), e1]
          simp only [Option.bind_some]
          cases r1 with
          | nil => cases hs1
          | cons u r1 =>
            simp only [List.cons_append] at e2 ⊢
            split
            · next he => cases he; exact (n1 _ rfl).elim
            · exact e2
    · obtain ⟨k, vs, rfl⟩ : ∃ k vs, ts = .name k :: .assign :: vs := by
        match ts with
        | [] => exact absurd rfl ha
        | [t] => cases t <;> exact absurd rfl ha
        | t :: u :: ts =>
          cases t <;> first | exact absurd rfl ha | (cases u <;> first | exact absurd rfl ha | exact ⟨_, _, rfl⟩)
      simp only [parseStep] at h
      split at h
      · cases h
      · next hc =>
        simp only [Option.bind_eq_some_iff, Prod.exists] at h
        obtain ⟨b, r1, h1, h⟩ := h
        have e1 := hm _ _ _ _ us h1 (by rw [hA _ _ _ _ _ h, Bool.or_true])
        have e2 := hm _ _ _ _ us h rfl
        simp only [parseStep, List.cons_append]
        rw [if_neg hc, e1]
        exact e2

end

theorem stops_argsMore (n : Nat) (f : Ast) (acc : List Ast) (kws : List String) (ts : List Tok) (r : Ast × List Tok)
    (h : parse n (.argsMore f acc kws) ts = some r) : stops ts = true := by
  cases n with
  | zero => cases h
  | succ n =>
    have h' : parseStep (parse n) (.argsMore f acc kws) ts = some r := h
    simp only [parseStep] at h'
    split at h'
    · exact stops_one (by simp) _
    · exact stops_one (by simp) _
    · cases h'

theorem parse_append : ∀ n : Nat, More (parse n)
  | 0 => fun _ _ _ _ _ h => by cases h
  | n + 1 => by
    have ih := parse_append n
    have hg := parse_good n
    intro m ts a rest us h hs
    have h' : parseStep (parse n) m ts = some (a, rest) := h
    show parseStep (parse n) m (ts ++ us) = some (a, rest ++ us)
    cases m with
    | expr => exact more_expr ih us h' hs
    | or => exact more_two hg ih us (m2 := fun a => .orMore [a]) (fun _ _ => rfl) h' hs
    | orMore acc => exact more_orMore hg ih us h' hs
    | and => exact more_two hg ih us (m2 := fun a => .andMore [a]) (fun _ _ => rfl) h' hs
    | andMore acc => exact more_andMore hg ih us h' hs
    | not => exact more_not hg ih us h' hs
    | cmp => exact more_two hg ih us (m2 := fun a => .cmpMore a [] []) (fun _ _ => rfl) h' hs
    | cmpMore x os bs => exact more_cmpMore hg ih us h' hs
    | arith => exact more_two hg ih us (m2 := fun a => .arithMore a) (fun _ _ => rfl) h' hs
    | arithMore x => exact more_arithMore hg ih us h' hs
    | term => exact more_two hg ih us (m2 := fun a => .termMore a) (fun _ _ => rfl) h' hs
    | termMore x => exact more_termMore hg ih us h' hs
    | factor => exact more_factor hg ih us h' hs
    | primary => exact more_primary hg ih us h' hs
    | trailers x => exact more_trailers hg ih us h' hs
    | args f acc kws => exact more_args hg ih us (stops_argsMore n) h'
    | argsMore f acc kws => exact more_argsMore ih us h'
    | paren => exact more_paren hg ih us h'
    | brack => exact more_brack hg ih us h'
    | brace => exact more_brace hg ih us h'
    | items k acc => exact more_items hg ih us h'
    | pairs acc => exact more_pairs hg ih us h'
    | comp k elt => exact more_comp ih us h'

/-- An expression in parentheses which is read to its end is an operand anywhere. -/
theorem pr_of_paren {ts : List Tok} {a : Ast} (h : Ev .paren ts (a, [])) : Pr (.lpar :: ts) a := by
  obtain ⟨n0, h⟩ := h
  exact pr_paren (fun rest => ⟨n0, fun n hn => by simpa using parse_append n _ _ _ _ rest (h n hn) rfl⟩)

end Verif.Text
