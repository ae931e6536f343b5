import Verif.Join.Spec

/-!
# Lemmas on joins
-/

set_option autoImplicit false

namespace Verif.Join

open Verif

variable {A V E : Type}

/-- Equality of key lists is an equivalence when equality of their elements is. -/
instance listEquivBEq [BEq V] [EquivBEq V] : EquivBEq (List V) where
  rfl := by
    intro a
    induction a with
    | nil => rfl
    | cons x xs ih => simp [List.cons_beq_cons, BEq.rfl]
  symm := by
    intro a
    induction a with
    | nil => intro b h; cases b with
      | nil => rfl
      | cons y ys => simp at h
    | cons x xs ih => intro b h; cases b with
      | nil => simp at h
      | cons y ys =>
        simp only [List.cons_beq_cons, Bool.and_eq_true] at h ⊢
        exact ⟨BEq.symm h.1, ih h.2⟩
  trans := by
    intro a
    induction a with
    | nil => intro b c h h'; cases b with
      | nil => exact h'
      | cons y ys => simp at h
    | cons x xs ih => intro b c h h'; cases b with
      | nil => simp at h
      | cons y ys => cases c with
        | nil => simp at h'
        | cons z zs =>
          simp only [List.cons_beq_cons, Bool.and_eq_true] at h h' ⊢
          exact ⟨BEq.trans h.1 h'.1, ih h.2 h'.2⟩

/-! ## Truth -/

/-- The outcome is `true`. -/
def isTrue (x : Except E Bool) : Bool :=
  match x with
  | .ok b => b
  | .error _ => false

theorem isTrue_iff (x : Except E Bool) : isTrue x = true ↔ x = .ok true := by
  cases x with
  | error e => simp [isTrue]
  | ok b => cases b <;> simp [isTrue]

theorem allHold_true [BEq V] (truthy : V → Bool) (l r : A) (as : List (Atom A V E)) :
    allHold truthy l r as = .ok true ↔ ∀ a ∈ as, a.holds truthy l r = .ok true := by
  induction as with
  | nil => simp [allHold]
  | cons a as ih =>
    cases h : a.holds truthy l r with
    | error e => simp [allHold, h]
    | ok b => cases b <;> simp [allHold, h, ih]

theorem allHold_ok [BEq V] (truthy : V → Bool) (l r : A) (as : List (Atom A V E))
    (h : ∀ a ∈ as, ∃ b, a.holds truthy l r = .ok b) : ∃ b, allHold truthy l r as = .ok b := by
  induction as with
  | nil => exact ⟨true, rfl⟩
  | cons a as ih =>
    obtain ⟨b, hb⟩ := h a (by simp)
    cases b with
    | false => exact ⟨false, by simp [allHold, hb]⟩
    | true => simpa [allHold, hb] using ih (fun a ha => h a (by simp [ha]))

mutual

theorem sat_true [BEq V] (truthy : V → Bool) (l r : A) : (c : Cond A V E) →
    (c.sat truthy l r = .ok true ↔ ∀ a ∈ c.conjuncts, a.holds truthy l r = .ok true)
  | .eq args => by simp [Cond.sat, Cond.conjuncts]
  | .other t => by simp [Cond.sat, Cond.conjuncts]
  | .and cs => by
    simp only [Cond.sat, Cond.conjuncts]
    exact satAll_true truthy l r cs

theorem satAll_true [BEq V] (truthy : V → Bool) (l r : A) : (cs : List (Cond A V E)) →
    (satAll truthy l r cs = .ok true ↔ ∀ a ∈ conjunctsAll cs, a.holds truthy l r = .ok true)
  | [] => by simp [satAll, conjunctsAll]
  | c :: cs => by
    have h1 := sat_true truthy l r c
    have h2 := satAll_true truthy l r cs
    simp only [satAll, conjunctsAll, List.mem_append]
    cases h : c.sat truthy l r with
    | error e =>
      simp only [h] at h1
      simp only [reduceCtorEq, false_iff]
      intro hall
      exact absurd (h1.2 (fun a ha => hall a (.inl ha))) (by simp)
    | ok b =>
      simp only [h] at h1
      cases b with
      | false =>
        simp only [Except.ok.injEq, Bool.false_eq_true, false_iff]
        intro hall
        exact absurd (h1.2 (fun a ha => hall a (.inl ha))) (by simp)
      | true =>
        simp only
        rw [h2]
        have h1' := h1.1 rfl
        constructor
        · intro h a ha
          rcases ha with ha | ha
          · exact h1' a ha
          · exact h a ha
        · intro h a ha
          exact h a (.inr ha)

end

theorem satOpt_true [BEq V] (truthy : V → Bool) (l r : A) (c : Option (Cond A V E)) :
    satOpt truthy l r c = .ok true ↔ ∀ a ∈ conjunctsOpt c, a.holds truthy l r = .ok true := by
  cases c with
  | none => simp [satOpt, conjunctsOpt]
  | some c => exact sat_true truthy l r c

theorem matchB_iff [BEq V] (truthy : V → Bool) (l r : A) (c : Option (Cond A V E)) :
    matchB truthy c l r = true ↔ ∀ a ∈ conjunctsOpt c, a.holds truthy l r = .ok true := by
  rw [← satOpt_true]
  exact isTrue_iff _

/-! ## Atoms and the rows they mention -/

/-- The atom as an `==` of a hasher pair. -/
def pairAtom (h : Term A V E × Term A V E) : Atom A V E := .eq [h.1, h.2]

theorem Term.eval_left (t : Term A V E) (h : t.usesRight = false) (l r r' : A) :
    t.eval l r = t.eval l r' := by
  cases t <;> first | rfl | simp [Term.usesRight] at h

theorem Term.eval_right (t : Term A V E) (h : t.usesLeft = false) (l l' r : A) :
    t.eval l r = t.eval l' r := by
  cases t <;> first | rfl | simp [Term.usesLeft] at h

theorem Atom.holds_congr [BEq V] (truthy : V → Bool) (a : Atom A V E) (l r l' r' : A)
    (h : ∀ t ∈ a.terms, t.eval l r = t.eval l' r') : a.holds truthy l r = a.holds truthy l' r' := by
  cases a with
  | other t => simp only [Atom.holds, h t (by simp [Atom.terms])]
  | eq args =>
    cases args with
    | nil => rfl
    | cons t ts =>
      have h2 : ts.map (fun t => t.eval l r) = ts.map (fun t => t.eval l' r') :=
        List.map_congr_left (fun t ht => h t (by simp [Atom.terms, ht]))
      simp only [Atom.holds, h t (by simp [Atom.terms]), h2]

theorem const_eval (a : Atom A V E) (h : a.isConst = true) (l r l' r' : A) :
    ∀ t ∈ a.terms, t.eval l r = t.eval l' r' := by
  unfold Atom.isConst at h
  split at h
  · rename_i a b
    intro t ht
    simp only [Atom.terms, List.mem_cons, List.not_mem_nil, or_false] at ht
    rcases ht with rfl | rfl
    · cases t <;> simp_all [Term.usesLeft, Term.usesRight, Term.eval]
    · cases t <;> simp_all [Term.usesLeft, Term.usesRight, Term.eval]
  · rename_i u
    intro t ht
    simp only [Atom.terms, List.mem_singleton] at ht
    subst ht
    cases t <;> simp_all [Term.usesLeft, Term.usesRight, Term.eval]
  · simp at h

theorem chainEq_ok [BEq V] (vs : List (Except E V)) (h : ∀ v ∈ vs, ∃ w, v = .ok w) :
    ∀ v : V, ∃ b, chainEq v vs = .ok b := by
  induction vs with
  | nil => exact fun v => ⟨true, rfl⟩
  | cons x xs ih =>
    intro v
    obtain ⟨w, rfl⟩ := h x (by simp)
    by_cases hv : (v == w) = true
    · simpa [chainEq, hv] using ih (fun v hv => h v (by simp [hv])) w
    · exact ⟨false, by simp [chainEq, hv]⟩

theorem Atom.holds_ok [BEq V] (truthy : V → Bool) (a : Atom A V E) (l r : A)
    (h : ∀ t ∈ a.terms, ∃ w, t.eval l r = .ok w) : ∃ b, a.holds truthy l r = .ok b := by
  cases a with
  | other t =>
    obtain ⟨w, hw⟩ := h t (by simp [Atom.terms])
    exact ⟨truthy w, by simp [Atom.holds, hw]⟩
  | eq args =>
    cases args with
    | nil => exact ⟨true, rfl⟩
    | cons t ts =>
      obtain ⟨w, hw⟩ := h t (by simp [Atom.terms])
      simp only [Atom.holds, hw]
      apply chainEq_ok
      intro v hv
      obtain ⟨t', ht', rfl⟩ := List.mem_map.1 hv
      exact h t' (by simp [Atom.terms, ht'])

/-! ## The parts of a condition -/

/-- The parts without the place they are in. -/
def Parts.all (p : Parts A V E) : List (Atom A V E) :=
  p.pre ++ p.leftColl ++ p.leftRow ++ p.rightColl ++ p.rightRow ++ p.inner ++ p.hashers.map pairAtom

/-- A key conjunct with its left side first. -/
def normAtom : Atom A V E → Atom A V E
  | .eq [.right f, .left g] => .eq [.left g, .right f]
  | a => a

theorem normAtom_cases (a : Atom A V E) :
    normAtom a = a ∨ ∃ f g, a = .eq [.right f, .left g] ∧ normAtom a = .eq [.left g, .right f] := by
  unfold normAtom
  split
  · exact .inr ⟨_, _, rfl, rfl⟩
  · exact .inl rfl

theorem normAtom_holds [BEq V] [EquivBEq V] (truthy : V → Bool) (a : Atom A V E) (l r : A) :
    (normAtom a).holds truthy l r = .ok true ↔ a.holds truthy l r = .ok true := by
  rcases normAtom_cases a with h | ⟨f, g, rfl, h⟩
  · rw [h]
  · rw [h]
    cases hf : f r with
    | error e =>
      cases hg : g l <;> simp [Atom.holds, Term.eval, hf, hg, chainEq]
    | ok v =>
      cases hg : g l with
      | error e => simp [Atom.holds, Term.eval, hf, hg, chainEq]
      | ok w => simp [Atom.holds, Term.eval, hf, hg, chainEq, BEq.comm (a := w)]

theorem normAtom_terms (a : Atom A V E) (t : Term A V E) : t ∈ (normAtom a).terms ↔ t ∈ a.terms := by
  rcases normAtom_cases a with h | ⟨f, g, rfl, h⟩
  · rw [h]
  · rw [h]; simp [Atom.terms, or_comm]

theorem normAtom_isKey (a : Atom A V E) : (normAtom a).isKey = a.isKey := by
  rcases normAtom_cases a with h | ⟨f, g, rfl, h⟩
  · rw [h]
  · rw [h]; rfl

theorem normAtom_of_not_key (a : Atom A V E) (h : (normAtom a).isKey = false) : normAtom a = a := by
  rcases normAtom_cases a with h' | ⟨f, g, rfl, h'⟩
  · exact h'
  · rw [h'] at h; simp [Atom.isKey] at h

/-- What places say about the rows mentioned. -/
structure Placed (how : How) (p : Parts A V E) : Prop where
  pre : ∀ a ∈ p.pre, a.isConst = true
  leftColl : ∀ a ∈ p.leftColl, ∀ t ∈ a.terms, t.usesRight = false
  rightColl : ∀ a ∈ p.rightColl, ∀ t ∈ a.terms, t.usesLeft = false
  rightOnly : ∀ a ∈ p.rightColl, a.rightOnly = true
  leftEmpty : how.leftJoin = true → p.leftColl = []
  rightEmpty : how.rightJoin = true → p.rightColl = []
  hashers : ∀ h ∈ p.hashers, ∃ f g, h = (.left f, .right g)
  nonKey : ∀ a ∈ p.pre ++ p.leftColl ++ p.leftRow ++ p.rightColl ++ p.rightRow ++ p.inner,
    a.isKey = false

theorem placed_empty (how : How) : Placed how ({} : Parts A V E) := by
  constructor <;> simp

/-- One atom goes to one place. -/
def Takes (how : How) (p p' : Parts A V E) (as : List (Atom A V E)) : Prop :=
  (∀ x, x ∈ p'.all ↔ x ∈ p.all ∨ x ∈ as.map normAtom) ∧ (Placed how p → Placed how p')

theorem takes_refl (how : How) (p : Parts A V E) : Takes how p p [] :=
  ⟨fun x => by simp, fun h => h⟩

theorem takes_trans {how : How} {p q s : Parts A V E} {as bs : List (Atom A V E)}
    (h1 : Takes how p q as) (h2 : Takes how q s bs) : Takes how p s (as ++ bs) := by
  refine ⟨fun x => ?_, fun h => h2.2 (h1.2 h)⟩
  rw [h2.1, h1.1, List.map_append, List.mem_append, or_assoc]

theorem takes_inner (how : How) (p : Parts A V E) (a : Atom A V E) (hk : a.isKey = false) :
    Takes how p { p with inner := p.inner ++ [a] } [a] := by
  have hn : normAtom a = a := normAtom_of_not_key a (by rw [normAtom_isKey, hk])
  refine ⟨fun x => ?_, fun h => ⟨h.pre, h.leftColl, h.rightColl, h.rightOnly, h.leftEmpty,
    h.rightEmpty, h.hashers, fun x hx => ?_⟩⟩
  · simp only [Parts.all, List.mem_append, List.map_cons, List.map_nil, hn, List.mem_singleton]
    grind
  · simp only [List.mem_append, List.mem_singleton] at hx
    have := h.nonKey x
    simp only [List.mem_append] at this
    rcases hx with hx | hx | rfl
    · exact this (.inl hx)
    · exact this (.inr hx)
    · exact hk

theorem takes_hasher (how : How) (p : Parts A V E) (a : Atom A V E) (f g : A → Except E V)
    (hn : normAtom a = .eq [.left f, .right g]) :
    Takes how p { p with hashers := p.hashers ++ [(.left f, .right g)] } [a] := by
  refine ⟨fun x => ?_, fun h => ⟨h.pre, h.leftColl, h.rightColl, h.rightOnly, h.leftEmpty,
    h.rightEmpty, fun x hx => ?_, h.nonKey⟩⟩
  · simp only [Parts.all, List.mem_append, List.map_cons, List.map_nil, hn, List.mem_singleton,
      List.map_append, pairAtom]
    grind
  · simp only [List.mem_append, List.mem_singleton] at hx
    rcases hx with hx | rfl
    · exact h.hashers x hx
    · exact ⟨f, g, rfl⟩

theorem takes_left (how : How) (p : Parts A V E) (a : Atom A V E) (hk : a.isKey = false)
    (hl : ∀ t ∈ a.terms, t.usesRight = false) : Takes how p (addLeft how p a) [a] := by
  have hn : normAtom a = a := normAtom_of_not_key a (by rw [normAtom_isKey, hk])
  unfold addLeft
  split
  · refine ⟨fun x => ?_, fun h => ⟨h.pre, h.leftColl, h.rightColl, h.rightOnly, h.leftEmpty,
      h.rightEmpty, h.hashers, fun x hx => ?_⟩⟩
    · simp only [Parts.all, List.mem_append, List.map_cons, List.map_nil, hn, List.mem_singleton]
      grind
    · have := h.nonKey x
      simp only [List.mem_append, List.mem_singleton] at this hx
      grind
  · rename_i hj
    refine ⟨fun x => ?_, fun h => ⟨h.pre, fun x hx => ?_, h.rightColl, h.rightOnly,
      fun hj' => absurd hj' hj, h.rightEmpty, h.hashers, fun x hx => ?_⟩⟩
    · simp only [Parts.all, List.mem_append, List.map_cons, List.map_nil, hn, List.mem_singleton]
      grind
    · simp only [List.mem_append, List.mem_singleton] at hx
      rcases hx with hx | rfl
      · exact h.leftColl x hx
      · exact hl
    · have := h.nonKey x
      simp only [List.mem_append, List.mem_singleton] at this hx
      grind

theorem takes_right (how : How) (p : Parts A V E) (a : Atom A V E) (hk : a.isKey = false)
    (hr : ∀ t ∈ a.terms, t.usesLeft = false) (ho : a.rightOnly = true) :
    Takes how p (addRight how p a) [a] := by
  have hn : normAtom a = a := normAtom_of_not_key a (by rw [normAtom_isKey, hk])
  unfold addRight
  split
  · refine ⟨fun x => ?_, fun h => ⟨h.pre, h.leftColl, h.rightColl, h.rightOnly, h.leftEmpty,
      h.rightEmpty, h.hashers, fun x hx => ?_⟩⟩
    · simp only [Parts.all, List.mem_append, List.map_cons, List.map_nil, hn, List.mem_singleton]
      grind
    · have := h.nonKey x
      simp only [List.mem_append, List.mem_singleton] at this hx
      grind
  · rename_i hj
    refine ⟨fun x => ?_, fun h => ⟨h.pre, h.leftColl, fun x hx => ?_, fun x hx => ?_,
      h.leftEmpty, fun hj' => absurd hj' hj, h.hashers, fun x hx => ?_⟩⟩
    · simp only [Parts.all, List.mem_append, List.map_cons, List.map_nil, hn, List.mem_singleton]
      grind
    · simp only [List.mem_append, List.mem_singleton] at hx
      rcases hx with hx | rfl
      · exact h.rightColl x hx
      · exact hr
    · simp only [List.mem_append, List.mem_singleton] at hx
      rcases hx with hx | rfl
      · exact h.rightOnly x hx
      · exact ho
    · have := h.nonKey x
      simp only [List.mem_append, List.mem_singleton] at this hx
      grind

theorem takes_pre (how : How) (p : Parts A V E) (a : Atom A V E) (hk : a.isKey = false)
    (hc : a.isConst = true) : Takes how p { p with pre := p.pre ++ [a] } [a] := by
  have hn : normAtom a = a := normAtom_of_not_key a (by rw [normAtom_isKey, hk])
  refine ⟨fun x => ?_, fun h => ⟨fun x hx => ?_, h.leftColl, h.rightColl, h.rightOnly,
    h.leftEmpty, h.rightEmpty, h.hashers, fun x hx => ?_⟩⟩
  · simp only [Parts.all, List.mem_append, List.map_cons, List.map_nil, hn, List.mem_singleton]
    grind
  · simp only [List.mem_append, List.mem_singleton] at hx
    rcases hx with hx | rfl
    · exact h.pre x hx
    · exact hc
  · have := h.nonKey x
    simp only [List.mem_append, List.mem_singleton] at this hx
    grind

theorem takes_eq (how : How) (p : Parts A V E) (args : List (Term A V E)) :
    Takes how p (consumeEq how p args) [.eq args] := by
  match args with
  | [] => exact takes_inner how p _ rfl
  | [a] => exact takes_inner how p _ (by cases a <;> rfl)
  | a :: b :: c :: rest => exact takes_inner how p _ (by cases a <;> cases b <;> rfl)
  | [a, b] =>
    cases a <;> cases b <;>
      simp only [consumeEq, Term.usesLeft, Term.usesRight, Bool.and_self, Bool.or_self,
        Bool.and_false, Bool.or_false, Bool.false_or, Bool.or_true, Bool.true_or, Bool.and_true,
        Bool.false_eq_true, if_true, if_false, place]
    case neither.neither => exact takes_pre how p _ rfl rfl
    case neither.left => exact takes_left how p _ rfl (by simp [Atom.terms, Term.usesRight])
    case neither.right => exact takes_right how p _ rfl (by simp [Atom.terms, Term.usesLeft]) rfl
    case left.neither => exact takes_left how p _ rfl (by simp [Atom.terms, Term.usesRight])
    case left.left => exact takes_left how p _ rfl (by simp [Atom.terms, Term.usesRight])
    case left.right => exact takes_hasher how p _ _ _ rfl
    case right.neither => exact takes_right how p _ rfl (by simp [Atom.terms, Term.usesLeft]) rfl
    case right.left => exact takes_hasher how p _ _ _ rfl
    case right.right => exact takes_right how p _ rfl (by simp [Atom.terms, Term.usesLeft]) rfl
    all_goals exact takes_inner how p _ rfl

theorem takes_other (how : How) (p : Parts A V E) (t : Term A V E) :
    Takes how p (consumeOther how p t) [.other t] := by
  cases t <;>
    simp only [consumeOther, Term.usesLeft, Term.usesRight, Bool.and_self,
        Bool.and_false, Bool.and_true, Bool.false_eq_true, if_true, if_false, place]
  case neither => exact takes_pre how p _ rfl rfl
  case left => exact takes_left how p _ rfl (by simp [Atom.terms, Term.usesRight])
  case right => exact takes_right how p _ rfl (by simp [Atom.terms, Term.usesLeft]) rfl
  case both => exact takes_inner how p _ rfl

mutual

theorem takes_consume (how : How) : (p : Parts A V E) → (c : Cond A V E) →
    Takes how p (consume how p c) c.conjuncts
  | p, .eq args => by
    simp only [consume, Cond.conjuncts]
    exact takes_eq how p args
  | p, .other t => by
    simp only [consume, Cond.conjuncts]
    exact takes_other how p t
  | p, .and cs => by
    simp only [consume, Cond.conjuncts]
    exact takes_consumeAll how p cs

theorem takes_consumeAll (how : How) : (p : Parts A V E) → (cs : List (Cond A V E)) →
    Takes how p (consumeAll how p cs) (conjunctsAll cs)
  | p, [] => by
    simp only [consumeAll, conjunctsAll]
    exact takes_refl how p
  | p, c :: cs => by
    simp only [consumeAll, conjunctsAll]
    exact takes_trans (takes_consume how p c) (takes_consumeAll how (consume how p c) cs)

end

/-- The parts are the conjuncts. -/
theorem parts_all (how : How) (c : Option (Cond A V E)) (x : Atom A V E) :
    x ∈ (fromCondition how c).all ↔ x ∈ (conjunctsOpt c).map normAtom := by
  cases c with
  | none => simp [fromCondition, conjunctsOpt, Parts.all]
  | some c =>
    have := (takes_consume how {} c).1 x
    simp only [Parts.all, List.append_nil, List.map_nil, List.not_mem_nil, false_or] at this
    simpa [fromCondition, conjunctsOpt, Parts.all] using this

theorem parts_placed (how : How) (c : Option (Cond A V E)) : Placed how (fromCondition how c) := by
  cases c with
  | none => exact placed_empty how
  | some c => exact (takes_consume how {} c).2 (placed_empty how)

end Verif.Join
