import Verif.Text.Parse

/-!
# Text: the last token of an expression
-/

set_option autoImplicit false

namespace Verif.Text

/-- Tokens with which an expression may end. -/
def ender : Tok → Bool
  | .name _ => true
  | .num _ => true
  | .str _ => true
  | .rpar => true
  | .rbr => true
  | .rcu => true
  | _ => false

/-- Tokens up to `rest` have been read, at least one of them with `s`; the last of them may end an expression. -/
def Eats (s : Bool) (ts rest : List Tok) : Prop :=
  ∃ pre, ts = pre ++ rest ∧ (pre = [] → s = false) ∧ ∀ t, pre.getLast? = some t → ender t = true

theorem Eats.refl (ts : List Tok) : Eats false ts ts := ⟨[], rfl, fun _ => rfl, by simp⟩

theorem Eats.trans {s s' : Bool} {a b c : List Tok} (h : Eats s a b) (h' : Eats s' b c) : Eats (s || s') a c := by
  obtain ⟨p, rfl, h1, h2⟩ := h
  obtain ⟨q, rfl, h3, h4⟩ := h'
  refine ⟨p ++ q, by simp, ?_, ?_⟩
  · intro he
    rw [List.append_eq_nil_iff] at he
    rw [h1 he.1, h3 he.2]
    rfl
  · intro t ht
    rw [List.getLast?_append] at ht
    cases hq : q.getLast? with
    | none => rw [hq] at ht; exact h2 t (by simpa using ht)
    | some x => rw [hq] at ht; exact h4 t (by rw [hq]; simpa using ht)

theorem Eats.after {s : Bool} {a b c : List Tok} (h : Eats true a b) (h' : Eats s b c) : Eats true a c := by
  simpa using h.trans h'

theorem Eats.cons (t : Tok) {b c : List Tok} (h : Eats true b c) : Eats true (t :: b) c := by
  obtain ⟨q, rfl, h3, h4⟩ := h
  refine ⟨t :: q, rfl, by simp, ?_⟩
  intro x hx
  cases q with
  | nil => exact absurd (h3 rfl) (by simp)
  | cons y q => exact h4 x (by simpa using hx)

theorem Eats.one {t : Tok} (c : List Tok) (h : ender t = true) : Eats true (t :: c) c :=
  ⟨[t], rfl, by simp, by simp [h]⟩

theorem Eats.weak {s : Bool} {a b : List Tok} (h : Eats true a b) : Eats s a b := by
  obtain ⟨p, h1, h2, h3⟩ := h
  exact ⟨p, h1, fun hp => absurd (h2 hp) (by simp), h3⟩

/-- Modes which read at least one token. -/
def strict : Mode → Bool
  | .orMore _ => false
  | .andMore _ => false
  | .cmpMore _ _ _ => false
  | .arithMore _ => false
  | .termMore _ => false
  | .trailers _ => false
  | _ => true

theorem expect_some {t : Tok} {ts us : List Tok} (h : expect t ts = some us) : ts = t :: us := by
  cases ts with
  | nil => cases h
  | cons x ts =>
    simp only [expect] at h
    split at h
    · rename_i he
      rw [he, Option.some.inj h]
    · cases h

theorem close_ender (k : Shape) : ender k.close = true := by cases k <;> rfl

theorem cmpOp_eats {ts us : List Tok} {o : Cmp} (h : cmpOp ts = some (o, us)) {c : List Tok} (h' : Eats true us c) :
    Eats true ts c := by
  unfold cmpOp at h
  split at h <;> first | (cases h; done) | (cases h; first | exact h'.cons _ | exact (h'.cons _).cons _)

theorem addOp_eats {ts us : List Tok} {o : Arith} (h : addOp ts = some (o, us)) {c : List Tok} (h' : Eats true us c) :
    Eats true ts c := by
  unfold addOp at h
  split at h <;> first | (cases h; done) | (cases h; exact h'.cons _)

theorem mulOp_eats {ts us : List Tok} {o : Arith} (h : mulOp ts = some (o, us)) {c : List Tok} (h' : Eats true us c) :
    Eats true ts c := by
  unfold mulOp at h
  split at h <;> first | (cases h; done) | (cases h; exact h'.cons _)

/-- What is read by the parser. -/
def Good (rec : P) : Prop := ∀ m ts a rest, rec m ts = some (a, rest) → Eats (strict m) ts rest

theorem items_good {rec : P} (hr : Good rec) {k : Shape} {acc : List Ast} {ts rest : List Tok} {a : Ast}
    (h : itemsNext rec k acc ts = some (a, rest)) : Eats true ts rest := by
  unfold itemsNext at h
  split at h
  · exact (hr _ _ _ _ h).cons _
  · obtain ⟨us, hu, he⟩ := Option.map_eq_some_iff.1 h
    cases he
    rw [expect_some hu]
    exact .one _ (close_ender k)

theorem pairs_good {rec : P} (hr : Good rec) {acc : List Ast} {ts rest : List Tok} {a : Ast}
    (h : pairsNext rec acc ts = some (a, rest)) : Eats true ts rest := by
  unfold pairsNext at h
  split at h
  · exact (hr _ _ _ _ h).cons _
  · cases h
    exact .one _ rfl
  · cases h

theorem step_good {rec : P} (hr : Good rec) : Good (parseStep rec) := by
  intro m ts a rest h
  cases m <;> simp only [parseStep] at h
  case expr =>
    obtain ⟨⟨t, us⟩, h1, h⟩ := Option.bind_eq_some_iff.1 h
    try dsimp only at h
    have e1 := hr _ _ _ _ h1
    split at h
    · obtain ⟨⟨c, vs⟩, h2, h⟩ := Option.bind_eq_some_iff.1 h
      try dsimp only at h
      obtain ⟨ws, h3, h⟩ := Option.bind_eq_some_iff.1 h
      try dsimp only at h
      obtain ⟨⟨f, xs⟩, h4, h⟩ := Option.bind_eq_some_iff.1 h
      try dsimp only at h
      cases h
      have e2 := hr _ _ _ _ h2
      have e4 := hr _ _ _ _ h4
      rw [expect_some h3] at e2
      exact e1.after ((e2.after (e4.cons _)).cons _)
    · cases h
      exact e1
  case or =>
    obtain ⟨⟨t, us⟩, h1, h⟩ := Option.bind_eq_some_iff.1 h
    try dsimp only at h
    exact (hr _ _ _ _ h1).after (hr _ _ _ _ h)
  case orMore =>
    split at h
    · obtain ⟨⟨t, us⟩, h1, h⟩ := Option.bind_eq_some_iff.1 h
      try dsimp only at h
      exact (((hr _ _ _ _ h1).after (hr _ _ _ _ h)).cons _).weak
    · cases h; exact .refl _
  case and =>
    obtain ⟨⟨t, us⟩, h1, h⟩ := Option.bind_eq_some_iff.1 h
    try dsimp only at h
    exact (hr _ _ _ _ h1).after (hr _ _ _ _ h)
  case andMore =>
    split at h
    · obtain ⟨⟨t, us⟩, h1, h⟩ := Option.bind_eq_some_iff.1 h
      try dsimp only at h
      exact (((hr _ _ _ _ h1).after (hr _ _ _ _ h)).cons _).weak
    · cases h; exact .refl _
  case not =>
    split at h
    · obtain ⟨⟨t, us⟩, h1, h⟩ := Option.bind_eq_some_iff.1 h
      try dsimp only at h
      cases h
      exact (hr _ _ _ _ h1).cons _
    · have := hr _ _ _ _ h
      exact this
  case cmp =>
    obtain ⟨⟨t, us⟩, h1, h⟩ := Option.bind_eq_some_iff.1 h
    try dsimp only at h
    exact (hr _ _ _ _ h1).after (hr _ _ _ _ h)
  case cmpMore =>
    split at h
    · rename_i ho
      obtain ⟨⟨t, us⟩, h1, h⟩ := Option.bind_eq_some_iff.1 h
      try dsimp only at h
      exact (cmpOp_eats ho ((hr _ _ _ _ h1).after (hr _ _ _ _ h))).weak
    · cases h; exact .refl _
  case arith =>
    obtain ⟨⟨t, us⟩, h1, h⟩ := Option.bind_eq_some_iff.1 h
    try dsimp only at h
    exact (hr _ _ _ _ h1).after (hr _ _ _ _ h)
  case arithMore =>
    split at h
    · rename_i ho
      obtain ⟨⟨t, us⟩, h1, h⟩ := Option.bind_eq_some_iff.1 h
      try dsimp only at h
      exact (addOp_eats ho ((hr _ _ _ _ h1).after (hr _ _ _ _ h))).weak
    · cases h; exact .refl _
  case term =>
    obtain ⟨⟨t, us⟩, h1, h⟩ := Option.bind_eq_some_iff.1 h
    try dsimp only at h
    exact (hr _ _ _ _ h1).after (hr _ _ _ _ h)
  case termMore =>
    split at h
    · rename_i ho
      obtain ⟨⟨t, us⟩, h1, h⟩ := Option.bind_eq_some_iff.1 h
      try dsimp only at h
      exact (mulOp_eats ho ((hr _ _ _ _ h1).after (hr _ _ _ _ h))).weak
    · cases h; exact .refl _
  case factor =>
    split at h
    · obtain ⟨⟨t, us⟩, h1, h⟩ := Option.bind_eq_some_iff.1 h
      try dsimp only at h
      cases h
      exact (hr _ _ _ _ h1).cons _
    · have := hr _ _ _ _ h
      exact this
  case primary =>
    split at h
    · exact (Eats.one _ rfl).after (hr _ _ _ _ h)
    · exact (Eats.one _ rfl).after (hr _ _ _ _ h)
    · exact (Eats.one _ rfl).after (hr _ _ _ _ h)
    · obtain ⟨⟨t, us⟩, h1, h⟩ := Option.bind_eq_some_iff.1 h
      try dsimp only at h
      exact ((hr _ _ _ _ h1).cons _).after (hr _ _ _ _ h)
    · obtain ⟨⟨t, us⟩, h1, h⟩ := Option.bind_eq_some_iff.1 h
      try dsimp only at h
      exact ((hr _ _ _ _ h1).cons _).after (hr _ _ _ _ h)
    · obtain ⟨⟨t, us⟩, h1, h⟩ := Option.bind_eq_some_iff.1 h
      try dsimp only at h
      exact ((hr _ _ _ _ h1).cons _).after (hr _ _ _ _ h)
    · cases h
  case trailers =>
    split at h
    · split at h
      · split at h
        · cases h
        · exact (((Eats.one _ rfl).after (hr _ _ _ _ h)).cons _).weak
      · cases h
    · obtain ⟨⟨t, us⟩, h1, h⟩ := Option.bind_eq_some_iff.1 h
      try dsimp only at h
      obtain ⟨ws, h3, h⟩ := Option.bind_eq_some_iff.1 h
      try dsimp only at h
      have e1 := hr _ _ _ _ h1
      rw [expect_some h3] at e1
      exact (((e1.after (Eats.one _ rfl)).cons _).after (hr _ _ _ _ h)).weak
    · obtain ⟨⟨t, us⟩, h1, h⟩ := Option.bind_eq_some_iff.1 h
      try dsimp only at h
      exact (((hr _ _ _ _ h1).cons _).after (hr _ _ _ _ h)).weak
    · cases h; exact .refl _
  case args =>
    split at h
    · cases h; exact .one _ rfl
    · split at h
      · cases h
      · obtain ⟨⟨t, us⟩, h1, h⟩ := Option.bind_eq_some_iff.1 h
        try dsimp only at h
        exact (((hr _ _ _ _ h1).after (hr _ _ _ _ h)).cons _).cons _
    · split at h
      · obtain ⟨⟨t, us⟩, h1, h⟩ := Option.bind_eq_some_iff.1 h
        try dsimp only at h
        have e1 := hr _ _ _ _ h1
        split at h
        · split at h
          · obtain ⟨⟨g, vs⟩, h2, h⟩ := Option.bind_eq_some_iff.1 h
            try dsimp only at h
            cases h
            exact e1.after ((hr _ _ _ _ h2).cons _)
          · cases h
        · exact e1.after (hr _ _ _ _ h)
      · cases h
  case argsMore =>
    split at h
    · exact (hr _ _ _ _ h).cons _
    · cases h; exact .one _ rfl
    · cases h
  case paren =>
    split at h
    · cases h; exact .one _ rfl
    · obtain ⟨⟨t, us⟩, h1, h⟩ := Option.bind_eq_some_iff.1 h
      try dsimp only at h
      have e1 := hr _ _ _ _ h1
      split at h
      · cases h; exact e1.after (Eats.one _ rfl)
      · exact e1.after ((hr _ _ _ _ h).cons _)
      · exact e1.after (items_good hr h)
  case brack =>
    split at h
    · cases h; exact .one _ rfl
    · obtain ⟨⟨t, us⟩, h1, h⟩ := Option.bind_eq_some_iff.1 h
      try dsimp only at h
      have e1 := hr _ _ _ _ h1
      split at h
      · exact e1.after ((hr _ _ _ _ h).cons _)
      · exact e1.after (items_good hr h)
  case brace =>
    split at h
    · cases h; exact .one _ rfl
    · obtain ⟨⟨t, us⟩, h1, h⟩ := Option.bind_eq_some_iff.1 h
      try dsimp only at h
      have e1 := hr _ _ _ _ h1
      split at h
      · obtain ⟨⟨u, vs⟩, h2, h⟩ := Option.bind_eq_some_iff.1 h
        try dsimp only at h
        have e2 := hr _ _ _ _ h2
        split at h
        · exact e1.after ((e2.after ((hr _ _ _ _ h).cons _)).cons _)
        · exact e1.after ((e2.after (pairs_good hr h)).cons _)
      · exact e1.after ((hr _ _ _ _ h).cons _)
      · exact e1.after (items_good hr h)
  case items k acc =>
    split at h
    · rename_i he
      cases h
      rw [expect_some he]
      exact .one _ (close_ender k)
    · obtain ⟨⟨t, us⟩, h1, h⟩ := Option.bind_eq_some_iff.1 h
      try dsimp only at h
      exact (hr _ _ _ _ h1).after (items_good hr h)
  case pairs =>
    split at h
    · cases h; exact .one _ rfl
    · obtain ⟨⟨t, us⟩, h1, h⟩ := Option.bind_eq_some_iff.1 h
      try dsimp only at h
      obtain ⟨ws, h3, h⟩ := Option.bind_eq_some_iff.1 h
      try dsimp only at h
      obtain ⟨⟨f, xs⟩, h4, h⟩ := Option.bind_eq_some_iff.1 h
      try dsimp only at h
      have e1 := hr _ _ _ _ h1
      rw [expect_some h3] at e1
      exact e1.after (((hr _ _ _ _ h4).after (pairs_good hr h)).cons _)
  case comp k elt =>
    split at h
    · split at h
      · cases h
      · obtain ⟨⟨t, us⟩, h1, h⟩ := Option.bind_eq_some_iff.1 h
        try dsimp only at h
        have e1 := hr _ _ _ _ h1
        split at h
        · obtain ⟨⟨c, vs⟩, h2, h⟩ := Option.bind_eq_some_iff.1 h
          try dsimp only at h
          obtain ⟨ws, h3, h⟩ := Option.map_eq_some_iff.1 h
          try dsimp only at h
          cases h
          have e2 := hr _ _ _ _ h2
          rw [expect_some h3] at e2
          exact ((e1.after ((e2.after (.one _ (close_ender k))).cons _)).cons _).cons _
        · obtain ⟨ws, h3, h⟩ := Option.map_eq_some_iff.1 h
          try dsimp only at h
          cases h
          rw [expect_some h3] at e1
          exact ((e1.after (.one _ (close_ender k))).cons _).cons _
    · cases h

theorem parse_good : ∀ n : Nat, Good (parse n)
  | 0 => fun _ _ _ _ h => by cases h
  | n + 1 => step_good (parse_good n)

/-- A whole expression ends with a name, a constant or a closing bracket. -/
theorem parse_last {n : Nat} {ts : List Tok} {a : Ast} (h : parse n .expr ts = some (a, [])) :
    ∃ t, ts.getLast? = some t ∧ ender t = true := by
  obtain ⟨pre, rfl, h1, h2⟩ := parse_good n _ _ _ _ h
  rw [List.append_nil]
  cases hl : pre.getLast? with
  | none =>
    rw [List.getLast?_eq_none_iff] at hl
    exact absurd (h1 hl) (by simp [strict])
  | some t => exact ⟨t, rfl, h2 t hl⟩

end Verif.Text
