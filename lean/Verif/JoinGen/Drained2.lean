import Verif.JoinGen.Drained

/-!
# A join consumed to its end: all kinds
-/

set_option autoImplicit false

namespace Verif.JoinGen

open Verif Verif.Lazy Verif.Join

variable {A V E : Type}

/-- `how` of the core for a kind of join. -/
def Kind.how : Kind → How
  | .inner => .inner
  | .left _ => .left
  | .outer => .outer

theorem filterE_nil (truthy : V → Bool) [BEq V] (xs : List A) :
    filterE (fun r => allHold truthy r r ([] : List (Atom A V E))) xs = .ok xs := by
  induction xs with
  | nil => rfl
  | cons x xs ih => simp [filterE, allHold] at ih ⊢; rw [ih]

theorem pairs_inner (none_ : A) (l : List (A × List A)) :
    pairsOf none_ .inner l = innerPairs l := by
  unfold pairsOf innerPairs
  congr 1
  funext x
  rcases x with ⟨a, _ | _⟩ <;> simp [Kind.pair]

theorem pairs_left (none_ : A) (kind : Kind) (hk : kind ≠ .inner) (l : List (A × List A)) :
    pairsOf none_ kind l = leftPairs none_ (decide (kind = .left true)) l := by
  unfold pairsOf leftPairs
  congr 1
  funext x
  have hp : ∀ a b : A, kind.pair a b = if decide (kind = .left true) then (b, a) else (a, b) := by
    intro a b
    cases kind with
    | inner => rfl
    | left sw => cases sw <;> rfl
    | outer => rfl
  rcases x with ⟨a, _ | _⟩
  · simp only [hk, if_false, hp]
  · simp only [hp]

theorem given_mem [DecidableEq A] (none_ : A) (l : List (A × List A)) (r : A) :
    (leftPairs none_ false l).any (fun p => decide (p.2 = r)) = decide (r ∈ givenOf none_ l) := by
  rw [Bool.eq_iff_iff]
  simp only [List.any_eq_true, decide_eq_true_eq, leftPairs, givenOf, List.mem_flatMap]
  constructor
  · rintro ⟨p, ⟨x, hx, hp⟩, rfl⟩
    refine ⟨x, hx, ?_⟩
    rcases x with ⟨a, _ | ⟨b, bs⟩⟩
    · simp only [Bool.false_eq_true, if_false, List.mem_singleton] at hp
      simp [hp]
    · simp only [Bool.false_eq_true, if_false, List.mem_map] at hp
      obtain ⟨y, hy, rfl⟩ := hp
      exact hy
  · rintro ⟨x, hx, hr⟩
    rcases x with ⟨a, _ | ⟨b, bs⟩⟩
    · simp only [List.mem_singleton] at hr
      exact ⟨(a, none_), ⟨_, hx, by simp⟩, hr.symm⟩
    · exact ⟨(a, r), ⟨_, hx, by simpa using hr⟩, rfl⟩

/-- The loops of the code of a condition, when `joinCore` gives pairs. -/
theorem loops_core [DecidableEq A] [BEq V] [EquivBEq V] (truthy : V → Bool) (none_ : A) (kind : Kind)
    (p : Parts A V E) (left right : List A) (oneShot : Bool) (pairs : List (A × A))
    (h : joinCore truthy none_ (decide (kind = .left true)) kind.how p left right oneShot = .ok pairs)
    (n m : ℕ) (hn : left.length < n) (hm : right.length + left.length < m) :
    ∃ w, loops (build truthy none_ kind p right oneShot) keep n m ⟨left, right, []⟩ = (.done, w) ∧
      w.out = pairs := by
  unfold joinCore at h
  unfold loops
  rw [pretest_build]
  rcases hpre : allHold truthy none_ none_ p.pre with _ | b
  · simp [hpre] at h
  rw [hpre] at h
  cases b
  · simp only [Except.ok.injEq] at h
    exact ⟨_, rfl, h⟩
  have hrf : (if decide (kind = .left true) = true then p.leftColl else p.rightColl) =
      rightFilters kind p := by simp [rightFilters]
  have hlf : (if decide (kind = .left true) = true then p.rightColl else p.leftColl) =
      leftFilters kind p := by simp [leftFilters]
  simp only [hrf, hlf] at h
  rcases hR : filterE (fun r => allHold truthy r r (rightFilters kind p)) right with _ | right'
  · simp [hR] at h
  rcases hL : filterE (fun r => allHold truthy r r (leftFilters kind p)) left with _ | left'
  · simp [hR, hL] at h
  simp only [hR, hL] at h
  have hkind : (build truthy none_ kind p right oneShot).kind = kind := rfl
  have hkeys : (build truthy none_ kind p right oneShot).keys =
      if p.hashers.isEmpty then none else
        some (fun l w => (keyOf (p.hashers.map Prod.fst) l, w),
          fun r w => (keyOf (p.hashers.map Prod.snd) r, w)) := rfl
  have hrows : (build truthy none_ kind p right oneShot).rows =
    if oneShot then none else some right := rfl
  have hfil : (build truthy none_ kind p right oneShot).rightFilter =
    filterOf truthy (rightFilters kind p) := rfl
  -- what is read of the right side, and the source
  have hread : ∃ src R rows m1 wr, (match (if p.hashers.isEmpty then
        (Except.ok (if ((oneShot || !(rightFilters kind p).isEmpty) && !decide (kind.how = .outer)) = true
          then Join.Source.iter right' else Join.Source.items right') : Except E (Join.Source A V))
        else match hashItems (p.hashers.map Prod.snd) [] right' with
          | .error e => .error e
          | .ok d => .ok (.hashed d)) with
      | .error e => Except.error e
      | .ok src =>
        match rowLoop truthy (decide (kind = .left true)) (p.hashers.map Prod.fst) (loopCond p) src
          left' with
        | .error e => .error e
        | .ok l =>
          match kind.how with
          | .inner => .ok (innerPairs l)
          | .outer => .ok (addRightPart none_ (leftPairs none_ (decide (kind = .left true)) l) right')
          | _ => .ok (leftPairs none_ (decide (kind = .left true)) l)) = Except.ok pairs ∧
      (if p.hashers.isEmpty then
        (Except.ok (if ((oneShot || !(rightFilters kind p).isEmpty) && !decide (kind.how = .outer)) = true
          then Join.Source.iter right' else Join.Source.items right') : Except E (Join.Source A V))
        else match hashItems (p.hashers.map Prod.snd) [] right' with
          | .error e => .error e
          | .ok d => .ok (.hashed d)) = .ok src ∧
      readRight (build truthy none_ kind p right oneShot) m ⟨left, right, []⟩ =
        (.ok (R, rows), m1, ⟨left, wr, []⟩) ∧
      Fits truthy none_ kind p right oneShot src R ⟨m1, false, ⟨left, wr, []⟩⟩ left.length ∧
      rows = (if kind = .outer then right' else []) := by
    unfold readRight
    rw [hkind, hkeys]
    by_cases ho : kind = .outer
    · subst ho
      obtain ⟨m1, hc⟩ := collect_asIs truthy none_ .outer p right oneShot left [] right right' m hR
        (by omega)
      cases hh : p.hashers with
      | nil =>
        rw [hh] at h
        refine ⟨.items right', .rows right', right', m1, [], h, ?_, ?_, rfl, by simp⟩
        · simp [Kind.how]
        · simp [hc]
      | cons a as =>
        rw [hh] at h
        simp only [List.isEmpty_cons, Bool.false_eq_true, if_false] at h ⊢
        rcases hd : hashItems (List.map Prod.snd (a :: as)) [] right' with _ | d
        · rw [hd] at h
          simp only [reduceCtorEq] at h
        · obtain ⟨ks, hk1, hk2⟩ := withKeys_ok (List.map Prod.snd (a :: as)) (⟨left, [], []⟩ : St A)
            right' [] d [] holds_nil hd
          rw [hd] at h
          refine ⟨.hashed d, .keyed ks, right', m1, [], h, rfl, ?_, ?_, by simp⟩
          · simp only [if_true, hc, hk1]
          · exact ⟨by simp [hh], by simpa using hk2⟩
    · have hho : kind.how ≠ .outer := by cases kind <;> simp_all [Kind.how]
      simp only [ho, if_false]
      cases hh : p.hashers with
      | nil =>
        rw [hh] at h
        simp only [List.isEmpty_nil, if_true, hho, decide_false, Bool.not_false, Bool.and_true] at h ⊢
        rw [hrows, hfil]
        by_cases hone : oneShot = true
        · subst hone
          refine ⟨.iter right', .stream, [], m, right, h, by simp, ?_, ?_, rfl⟩
          · simp
          · simp only [Fits, Bool.false_and, Bool.false_eq_true, if_false]
            exact ⟨hR, hm⟩
        · have hone' : oneShot = false := by simpa using hone
          subst hone'
          cases hrF : rightFilters kind p with
          | nil =>
            rw [hrF] at h hR
            rw [filterE_nil] at hR
            simp only [Except.ok.injEq] at hR
            subst hR
            refine ⟨.items right, .rows right, [], m, right, h, by simp, ?_, rfl, rfl⟩
            simp [filterOf]
          | cons f fs =>
            rw [hrF] at h
            refine ⟨.iter right', .stream, [], m, right, h, by simp, ?_, ?_, rfl⟩
            · simp [filterOf]
            · simp only [Fits, Bool.false_and, Bool.false_eq_true, if_false]
              exact ⟨hR, hm⟩
      | cons a as =>
        rw [hh] at h
        simp only [List.isEmpty_cons, Bool.false_eq_true, if_false] at h ⊢
        rcases hd : hashItems (List.map Prod.snd (a :: as)) [] right' with _ | d
        · rw [hd] at h
          simp only [reduceCtorEq] at h
        · obtain ⟨ks, hk1, hk2⟩ := withKeys_ok (List.map Prod.snd (a :: as)) (⟨left, [], []⟩ : St A)
            right' [] d [] holds_nil hd
          obtain ⟨m1, hc⟩ := collect_keyed truthy none_ kind p right oneShot
            (List.map Prod.snd (a :: as)) left [] right right' m ks hR hk1 (by omega)
          rw [hd] at h
          refine ⟨.hashed d, .keyed ks, [], m1, [], h, rfl, ?_, ?_, rfl⟩
          · rw [hc]
          · exact ⟨by simp [hh], by simpa using hk2⟩
  obtain ⟨src, R, rows, m1, wr, h, hsrc, hrd, hfit, hrw⟩ := hread
  rw [hsrc] at h
  dsimp only at h ⊢
  rw [hrd]
  rcases hl : rowLoop truthy (decide (kind = .left true)) (p.hashers.map Prod.fst) (loopCond p) src
    left' with _ | l
  · simp only [hl, reduceCtorEq] at h
  simp only [hl] at h
  obtain ⟨W', he, hout⟩ := eachLeft_ok truthy none_ kind p right oneShot left left' src R
    ⟨m1, false, ⟨left, wr, []⟩⟩ l n hL hl rfl hn hfit
  dsimp only
  rw [he]
  dsimp only
  rw [eachUnmatched_ok]
  refine ⟨_, rfl, ?_⟩
  simp only [List.nil_append] at hout
  dsimp only
  rw [hout, hrw]
  cases kind with
  | inner =>
    simp only [Kind.how, Except.ok.injEq] at h
    simp [pairs_inner, h]
  | left sw =>
    simp only [Kind.how, Except.ok.injEq] at h
    rw [pairs_left none_ (.left sw) (by simp), h]
    simp
  | outer =>
    simp only [Kind.how, Except.ok.injEq] at h
    rw [pairs_left none_ .outer (by simp), ← h]
    simp only [reduceCtorEq, decide_false, if_true, addRightPart]
    congr 2
    apply List.filter_congr
    intro x _
    rw [given_mem]
    simp

end Verif.JoinGen
