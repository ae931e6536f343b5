import Verif.JoinGen.Main
import Verif.JoinGen.Build
import Verif.Join.Run

/-!
# A join consumed to its end

The loops of `Spec.lean` for the code of a condition without effects give the pairs of
`Join/Model.lean`.
-/

set_option autoImplicit false

namespace Verif.JoinGen

open Verif Verif.Lazy Verif.Join

variable {A V E : Type}

section

variable [BEq V] (truthy : V → Bool) (none_ : A) (kind : Kind) (p : Parts A V E) (rows : List A)
  (oneShot : Bool)

/-- The filters of the right side of the loop. -/
def rightFilters (kind : Kind) (p : Parts A V E) : List (Atom A V E) :=
  if kind = .left true then p.leftColl else p.rightColl

/-- The filters of the left side of the loop. -/
def leftFilters (kind : Kind) (p : Parts A V E) : List (Atom A V E) :=
  if kind = .left true then p.rightColl else p.leftColl

/-- The condition of the inner loop. -/
def loopCond (p : Parts A V E) : List (Atom A V E) := p.leftRow ++ p.rightRow ++ p.inner

theorem test_filterOf (as : List (Atom A V E)) (x : A) (w : St A) :
    test (filterOf truthy as) x w = (allHold truthy x x as, w) := by
  cases as <;> rfl

theorem test_right (x : A) (w : St A) :
    test (build truthy none_ kind p rows oneShot).rightFilter x w =
      (allHold truthy x x (rightFilters kind p), w) := test_filterOf _ _ _ _

theorem test_left (x : A) (w : St A) :
    test (build truthy none_ kind p rows oneShot).leftFilter x w =
      (allHold truthy x x (leftFilters kind p), w) := test_filterOf _ _ _ _

theorem holds_build (l r : A) (w : St A) :
    (build truthy none_ kind p rows oneShot).holds l r w =
      (if decide (kind = .left true) then allHold truthy r l (loopCond p)
        else allHold truthy l r (loopCond p), w) := by
  simp only [Code.holds, build, loopCond]
  cases h : p.leftRow ++ p.rightRow ++ p.inner with
  | nil => simp [allHold]
  | cons a as => simp

theorem pretest_build (w : St A) :
    (build truthy none_ kind p rows oneShot).pretest w = (allHold truthy none_ none_ p.pre, w) := by
  simp only [Code.pretest, build]
  cases p.pre <;> simp [allHold]

/-- The right side read completely. -/
theorem collect_asIs (left : List A) (out : List (A × A)) : ∀ (right right' : List A) (m : ℕ),
    filterE (fun r => allHold truthy r r (rightFilters kind p)) right = .ok right' →
    right.length < m →
    ∃ m', collect (build truthy none_ kind p rows oneShot) asIs m ⟨left, right, out⟩ =
      (.ok right', m', ⟨left, [], out⟩) := by
  intro right
  induction right with
  | nil =>
    intro right' m h hm
    obtain ⟨m, rfl⟩ : ∃ j, m = j + 1 := ⟨m - 1, by omega⟩
    simp only [filterE, Except.ok.injEq] at h
    subst h
    exact ⟨m, rfl⟩
  | cons r right ih =>
    intro right' m h hm
    obtain ⟨m, rfl⟩ : ∃ j, m = j + 1 := ⟨m - 1, by omega⟩
    simp only [List.length_cons] at hm
    simp only [collect]
    have hp : (build truthy none_ kind p rows oneShot).pullR ⟨left, r :: right, out⟩ =
      (.yield r, ⟨left, right, out⟩) := rfl
    rw [hp]
    dsimp only
    rw [test_right]
    simp only [filterE] at h
    rcases ha : allHold truthy r r (rightFilters kind p) with _ | b
    · simp [ha] at h
    · simp only [ha] at h
      rcases hf : filterE (fun r => allHold truthy r r (rightFilters kind p)) right with _ | ys
      · simp [hf] at h
      · simp only [hf, Except.ok.injEq] at h
        obtain ⟨m', hc⟩ := ih ys m hf (by omega)
        cases b
        · simp only [Bool.false_eq_true, if_false] at h
          subst h
          exact ⟨m', hc⟩
        · simp only [if_true] at h
          subst h
          refine ⟨m', ?_⟩
          simp only [asIs] at hc ⊢
          rw [hc]

/-- Keys of rows, when they can be computed. -/
theorem withKeys_ok [EquivBEq V] (ts : List (Term A V E)) (w : St A) : ∀ (right : List A)
    (d d' : List (List V × List A)) (ks : List (List V × A)), Holds d ks →
    hashItems ts d right = .ok d' →
    ∃ ks', withKeys (fun r (w : St A) => (keyOf ts r, w)) right w = (.ok ks', w) ∧
      Holds d' (ks ++ ks') := by
  intro right
  induction right with
  | nil =>
    intro d d' ks h he
    simp only [hashItems, Except.ok.injEq] at he
    subst he
    exact ⟨[], rfl, by simpa using h⟩
  | cons r right ih =>
    intro d d' ks h he
    simp only [hashItems] at he
    rcases hk : keyOf ts r with _ | k
    · simp [hk] at he
    · simp only [hk] at he
      obtain ⟨ks', h1, h2⟩ := ih _ d' _ (holds_set d ks h k r) he
      refine ⟨(k, r) :: ks', ?_, by simpa using h2⟩
      simp only [withKeys, hk, h1]

/-- The right side read completely, with keys. -/
theorem collect_keyed (ts : List (Term A V E)) (left : List A) (out : List (A × A)) :
    ∀ (right right' : List A) (m : ℕ) (ks : List (List V × A)),
    filterE (fun r => allHold truthy r r (rightFilters kind p)) right = .ok right' →
    withKeys (fun r (w : St A) => (keyOf ts r, w)) right' ⟨left, [], out⟩ = (.ok ks, ⟨left, [], out⟩) →
    right.length < m →
    ∃ m', collect (build truthy none_ kind p rows oneShot) (keyed fun r w => (keyOf ts r, w)) m
      ⟨left, right, out⟩ = (.ok ks, m', ⟨left, [], out⟩) := by
  intro right
  induction right with
  | nil =>
    intro right' m ks h hk hm
    obtain ⟨m, rfl⟩ : ∃ j, m = j + 1 := ⟨m - 1, by omega⟩
    simp only [filterE, Except.ok.injEq] at h
    subst h
    simp only [withKeys, Prod.mk.injEq, Except.ok.injEq] at hk
    rw [← hk.1]
    exact ⟨m, rfl⟩
  | cons r right ih =>
    intro right' m ks h hk hm
    obtain ⟨m, rfl⟩ : ∃ j, m = j + 1 := ⟨m - 1, by omega⟩
    simp only [List.length_cons] at hm
    simp only [collect]
    have hp : (build truthy none_ kind p rows oneShot).pullR ⟨left, r :: right, out⟩ =
      (.yield r, ⟨left, right, out⟩) := rfl
    rw [hp]
    dsimp only
    rw [test_right]
    simp only [filterE] at h
    rcases ha : allHold truthy r r (rightFilters kind p) with _ | b
    · simp [ha] at h
    · simp only [ha] at h
      rcases hf : filterE (fun r => allHold truthy r r (rightFilters kind p)) right with _ | ys
      · simp [hf] at h
      · simp only [hf, Except.ok.injEq] at h
        cases b
        · simp only [Bool.false_eq_true, if_false] at h
          subst h
          obtain ⟨m', hc⟩ := ih _ m ks hf hk (by omega)
          exact ⟨m', hc⟩
        · simp only [if_true] at h
          subst h
          simp only [withKeys] at hk
          rcases hk1 : keyOf ts r with _ | k
          · simp [hk1] at hk
          · simp only [hk1] at hk
            rcases hk2 : withKeys (fun r (w : St A) => (keyOf ts r, w)) ys ⟨left, [], out⟩ with
              ⟨_ | ks2, w2⟩
            · simp [hk2] at hk
            · simp only [hk2, Prod.mk.injEq, Except.ok.injEq] at hk
              obtain ⟨rfl, rfl⟩ := hk
              obtain ⟨m', hc⟩ := ih _ m ks2 hf hk2 (by omega)
              refine ⟨m', ?_⟩
              simp only [keyed, hk1] at hc ⊢
              rw [hc]

/-- The pairs of a left row with the items of a list. -/
theorem eachRow_ok (l : A) (w : St A) : ∀ (items ms : List A),
    matches_ truthy (decide (kind = .left true)) (loopCond p) l items = .ok ms →
    eachRow (build truthy none_ kind p rows oneShot) l (fun r w => keep (kind.pair l r) w) items w =
      (.done, ms, { w with out := w.out ++ ms.map (fun r => kind.pair l r) }) := by
  intro items
  induction items generalizing w with
  | nil =>
    intro ms h
    simp only [matches_, filterE, Except.ok.injEq] at h
    subst h
    simp [eachRow]
  | cons r items ih =>
    intro ms h
    simp only [matches_, filterE] at h
    simp only [eachRow]
    rw [holds_build]
    rcases ha : (if decide (kind = .left true) then allHold truthy r l (loopCond p)
        else allHold truthy l r (loopCond p)) with _ | b
    · simp only [ha, reduceCtorEq] at h
    · simp only [ha] at h
      rcases hf : filterE (fun item => if decide (kind = .left true) then
          allHold truthy item l (loopCond p) else allHold truthy l item (loopCond p)) items with _ | ys
      · simp only [hf, reduceCtorEq] at h
      · simp only [hf, Except.ok.injEq] at h
        cases b
        · simp only [Bool.false_eq_true, if_false] at h
          subst h
          exact ih w _ hf
        · simp only [if_true] at h
          subst h
          simp only [keep]
          have := ih { w with out := w.out ++ [kind.pair l r] } ys hf
          simp only [keep] at this
          rw [this]
          simp

/-- The pairs of a left row with what is left in the iterator. -/
theorem eachShared_ok (l : A) : ∀ (right items ms : List A) (m : ℕ) (left : List A)
    (out : List (A × A)),
    filterE (fun r => allHold truthy r r (rightFilters kind p)) right = .ok items →
    matches_ truthy (decide (kind = .left true)) (loopCond p) l items = .ok ms →
    right.length < m →
    eachShared (build truthy none_ kind p rows oneShot) l (fun r w => keep (kind.pair l r) w) m
      ⟨left, right, out⟩ = (.done, ms, ⟨m - right.length - 1, true,
        ⟨left, [], out ++ ms.map (fun r => kind.pair l r)⟩⟩) := by
  intro right
  induction right with
  | nil =>
    intro items ms m left out h1 h2 hm
    obtain ⟨m, rfl⟩ : ∃ j, m = j + 1 := ⟨m - 1, by omega⟩
    simp only [filterE, Except.ok.injEq] at h1
    subst h1
    simp only [matches_, filterE, Except.ok.injEq] at h2
    subst h2
    have hp : (build truthy none_ kind p rows oneShot).pullR ⟨left, [], out⟩ =
      (.stop, ⟨left, [], out⟩) := rfl
    simp [eachShared, hp]
  | cons r right ih =>
    intro items ms m left out h1 h2 hm
    obtain ⟨m, rfl⟩ : ∃ j, m = j + 1 := ⟨m - 1, by omega⟩
    simp only [List.length_cons] at hm
    have hp : (build truthy none_ kind p rows oneShot).pullR ⟨left, r :: right, out⟩ =
      (.yield r, ⟨left, right, out⟩) := rfl
    have hlen : m + 1 - (r :: right).length - 1 = m - right.length - 1 := by
      simp only [List.length_cons]; omega
    rw [hlen]
    simp only [eachShared, hp, test_right]
    simp only [filterE] at h1
    rcases ha : allHold truthy r r (rightFilters kind p) with _ | b
    · simp [ha] at h1
    · simp only [ha] at h1
      rcases hf : filterE (fun r => allHold truthy r r (rightFilters kind p)) right with _ | ys
      · simp [hf] at h1
      · simp only [hf, Except.ok.injEq] at h1
        cases b
        · simp only [Bool.false_eq_true, if_false] at h1
          subst h1
          exact ih _ ms m left out hf h2 (by omega)
        · simp only [if_true] at h1
          subst h1
          simp only [matches_, filterE] at h2
          dsimp only
          rw [holds_build]
          rcases hb : (if decide (kind = .left true) then allHold truthy r l (loopCond p)
            else allHold truthy l r (loopCond p)) with _ | b
          · simp only [hb, reduceCtorEq] at h2
          · simp only [hb] at h2
            rcases hg : filterE (fun item => if decide (kind = .left true) then
              allHold truthy item l (loopCond p) else allHold truthy l item (loopCond p)) ys with _ | zs
            · simp only [hg, reduceCtorEq] at h2
            · simp only [hg, Except.ok.injEq] at h2
              cases b
              · simp only [Bool.false_eq_true, if_false] at h2
                subst h2
                exact ih ys _ m left out hf hg (by omega)
              · simp only [if_true] at h2
                subst h2
                simp only [keep]
                have := ih ys zs m left (out ++ [kind.pair l r]) hf hg (by omega)
                simp only [keep] at this
                rw [this]
                simp

/-- The source of `Join/Model.lean` and what the loops have, with so many left rows to come. -/
def Fits (src : Join.Source A V) (right : Right A (List V)) (W : World (St A)) (left : ℕ) : Prop :=
  match src, right with
  | .hashed d, .keyed ks => p.hashers ≠ [] ∧ Holds d ks
  | .items xs, .rows ys => xs = ys
  | .iter xs, .stream =>
    if W.closed && (build truthy none_ kind p rows oneShot).rightFilter.isSome then xs = []
    else filterE (fun r => allHold truthy r r (rightFilters kind p)) W.st.right = .ok xs ∧
      W.st.right.length + left < W.right
  | _, _ => False

theorem eachMatch_ok [EquivBEq V] (src src' : Join.Source A V) (right : Right A (List V))
    (W : World (St A)) (left : ℕ) (l : A) (items ms : List A)
    (hf : Fits truthy none_ kind p rows oneShot src right W (left + 1))
    (ht : src.take (p.hashers.map Prod.fst) l = .ok (items, src'))
    (hm : matches_ truthy (decide (kind = .left true)) (loopCond p) l items = .ok ms) :
    ∃ W', eachMatch (build truthy none_ kind p rows oneShot) right l
        (fun r w => keep (kind.pair l r) w) W = (.done, ms, W') ∧
      W'.st.left = W.st.left ∧ W'.st.out = W.st.out ++ ms.map (fun r => kind.pair l r) ∧
      Fits truthy none_ kind p rows oneShot src' right W' left := by
  cases src with
  | hashed d =>
    cases right <;> try exact hf.elim
    rename_i ks
    obtain ⟨hne, hh⟩ := hf
    simp only [Join.Source.take] at ht
    rcases hk : keyOf (p.hashers.map Prod.fst) l with _ | k
    · simp [hk] at ht
    · simp only [hk, Except.ok.injEq, Prod.mk.injEq] at ht
      obtain ⟨rfl, rfl⟩ := ht
      have hkeys : (build truthy none_ kind p rows oneShot).keys =
          some (fun l w => (keyOf (p.hashers.map Prod.fst) l, w),
            fun r w => (keyOf (p.hashers.map Prod.snd) r, w)) := by
        simp only [build]
        cases h : p.hashers with
        | nil => exact (hne h).elim
        | cons a as => simp
      have := eachRow_ok truthy none_ kind p rows oneShot l W.st _ ms hm
      simp only [eachMatch, hkeys, hk]
      rw [← hh k, this]
      exact ⟨_, rfl, rfl, rfl, hne, hh⟩
  | items xs =>
    cases right <;> try exact hf.elim
    rename_i ys
    simp only [Fits] at hf
    subst hf
    simp only [Join.Source.take, Except.ok.injEq, Prod.mk.injEq] at ht
    obtain ⟨rfl, rfl⟩ := ht
    simp only [eachMatch]
    rw [eachRow_ok truthy none_ kind p rows oneShot l W.st _ ms hm]
    exact ⟨_, rfl, rfl, rfl, rfl⟩
  | iter xs =>
    cases right <;> try exact hf.elim
    simp only [Join.Source.take, Except.ok.injEq, Prod.mk.injEq] at ht
    obtain ⟨rfl, rfl⟩ := ht
    simp only [Fits] at hf
    simp only [eachMatch]
    by_cases hc : (W.closed && (build truthy none_ kind p rows oneShot).rightFilter.isSome) = true
    · simp only [hc, if_true] at hf ⊢
      subst hf
      simp only [matches_, filterE, Except.ok.injEq] at hm
      subst hm
      refine ⟨W, rfl, rfl, by simp, ?_⟩
      simp [Fits, hc]
    · simp only [hc, Bool.false_eq_true, if_false] at hf ⊢
      obtain ⟨h1, h2⟩ := hf
      obtain ⟨b, cl, ⟨wl, wr, wo⟩⟩ := W
      dsimp only at h1 h2
      rw [eachShared_ok truthy none_ kind p rows oneShot l wr xs ms b wl wo h1 hm (by omega)]
      refine ⟨_, rfl, rfl, rfl, ?_⟩
      simp only [Fits]
      split
      · trivial
      · refine ⟨rfl, ?_⟩
        simp only [List.length_nil]
        omega

theorem fits_mono (src : Join.Source A V) (right : Right A (List V)) (W : World (St A)) (left : ℕ)
    (hf : Fits truthy none_ kind p rows oneShot src right W (left + 1)) (w : St A)
    (hw : w.right = W.st.right) :
    Fits truthy none_ kind p rows oneShot src right ⟨W.right, W.closed, w⟩ left := by
  cases src <;> cases right <;> try exact hf
  simp only [Fits] at hf ⊢
  split
  · rename_i h
    simpa only [h, if_true] using hf
  · rename_i h
    simp only [h, Bool.false_eq_true, if_false] at hf
    rw [hw]
    exact ⟨hf.1, by omega⟩

/-- The pairs of the loop over the left rows. -/
def pairsOf (l : List (A × List A)) : List (A × A) :=
  l.flatMap fun x => match x.2 with
    | [] => if kind = .inner then [] else [kind.pair x.1 none_]
    | rs => rs.map (fun r => kind.pair x.1 r)

/-- What the pairs have as second components, with `None` for left rows alone. -/
def givenOf (l : List (A × List A)) : List A :=
  l.flatMap fun x => match x.2 with
    | [] => [none_]
    | rs => rs

theorem eachLeft_ok [EquivBEq V] : ∀ (left left' : List A) (src : Join.Source A V)
    (right : Right A (List V)) (W : World (St A)) (l : List (A × List A)) (n : ℕ),
    filterE (fun r => allHold truthy r r (leftFilters kind p)) left = .ok left' →
    rowLoop truthy (decide (kind = .left true)) (p.hashers.map Prod.fst) (loopCond p) src left' =
      .ok l →
    W.st.left = left → left.length < n →
    Fits truthy none_ kind p rows oneShot src right W left.length →
    ∃ W', eachLeft (build truthy none_ kind p rows oneShot) right keep n W =
      (.done, givenOf none_ l, W') ∧ W'.st.out = W.st.out ++ pairsOf none_ kind l := by
  intro left
  induction left with
  | nil =>
    intro left' src right W l n h1 h2 hl hn hf
    obtain ⟨n, rfl⟩ : ∃ j, n = j + 1 := ⟨n - 1, by omega⟩
    simp only [filterE, Except.ok.injEq] at h1
    subst h1
    simp only [rowLoop, Except.ok.injEq] at h2
    subst h2
    have hp : (build truthy none_ kind p rows oneShot).pullL W.st = (.stop, W.st) := by
      simp [build, popLeft, hl]
    simp only [eachLeft, hp]
    exact ⟨_, rfl, by simp [pairsOf]⟩
  | cons x left ih =>
    intro left' src right W l n h1 h2 hl hn hf
    obtain ⟨n, rfl⟩ : ∃ j, n = j + 1 := ⟨n - 1, by omega⟩
    simp only [List.length_cons] at hn hf
    have hp : (build truthy none_ kind p rows oneShot).pullL W.st =
        (.yield x, { W.st with left := left }) := by
      simp [build, popLeft, hl]
    simp only [eachLeft, hp, test_left]
    simp only [filterE] at h1
    rcases ha : allHold truthy x x (leftFilters kind p) with _ | b
    · simp [ha] at h1
    · simp only [ha] at h1
      rcases hff : filterE (fun r => allHold truthy r r (leftFilters kind p)) left with _ | ys
      · simp [hff] at h1
      · simp only [hff, Except.ok.injEq] at h1
        cases b
        · simp only [Bool.false_eq_true, if_false] at h1
          subst h1
          exact ih ys src right ⟨W.right, W.closed, { W.st with left := left }⟩ l n hff h2 rfl (by omega)
            (fits_mono truthy none_ kind p rows oneShot src right W left.length hf _ rfl)
        · simp only [if_true] at h1
          subst h1
          simp only [rowLoop] at h2
          rcases htk : src.take (p.hashers.map Prod.fst) x with _ | ⟨items, src'⟩
          · simp [htk] at h2
          · simp only [htk] at h2
            rcases hm : matches_ truthy (decide (kind = .left true)) (loopCond p) x items with _ | ms
            · simp only [hm, reduceCtorEq] at h2
            · simp only [hm] at h2
              rcases hr : rowLoop truthy (decide (kind = .left true)) (p.hashers.map Prod.fst) (loopCond p)
                src' ys with _ | out
              · simp only [hr, reduceCtorEq] at h2
              · simp only [hr, Except.ok.injEq] at h2
                subst h2
                have hf0 : Fits truthy none_ kind p rows oneShot src right
                    ⟨W.right, W.closed, { W.st with left := left }⟩ (left.length + 1) := by
                  cases src <;> cases right <;> exact hf
                obtain ⟨W3, he, hw1, hw2, hw3⟩ := eachMatch_ok truthy none_ kind p rows oneShot src src'
                  right _ left.length x items ms hf0 htk hm
                have hk : (build truthy none_ kind p rows oneShot).kind = kind := rfl
                have hn_ : (build truthy none_ kind p rows oneShot).none_ = none_ := rfl
                dsimp only
                rw [hk, he]
                cases ms with
                | nil =>
                  simp only [List.map_nil, List.append_nil] at hw2
                  dsimp only
                  by_cases hi : kind = .inner
                  · have hlo : lonely (build truthy none_ kind p rows oneShot) keep x W3.st =
                        ((.go : Flow E), W3.st) := by
                      unfold lonely
                      rw [if_pos (hk.trans hi)]
                    rw [hlo]
                    obtain ⟨W', h3, h4⟩ := ih ys src' right W3 out n hff hr hw1 (by omega) hw3
                    dsimp only
                    rw [h3]
                    refine ⟨W', by simp [givenOf, hn_], ?_⟩
                    rw [h4, hw2]
                    simp [pairsOf, hi]
                  · have hlo : lonely (build truthy none_ kind p rows oneShot) keep x W3.st =
                        ((.go : Flow E), { W3.st with out := W3.st.out ++ [kind.pair x none_] }) := by
                      simp [lonely, hk, hi, keep, hn_]
                    rw [hlo]
                    dsimp only
                    obtain ⟨W', h3, h4⟩ := ih ys src' right
                      ⟨W3.right, W3.closed, { W3.st with out := W3.st.out ++ [kind.pair x none_] }⟩ out n
                      hff hr hw1 (by omega) (by
                        cases src' <;> cases right <;> exact hw3)
                    simp only [hn_]
                    rw [h3]
                    refine ⟨W', by simp [givenOf], ?_⟩
                    rw [h4, hw2]
                    simp [pairsOf, hi]
                | cons r ms =>
                  dsimp only
                  obtain ⟨W', h3, h4⟩ := ih ys src' right W3 out n hff hr hw1 (by omega) hw3
                  rw [h3]
                  refine ⟨W', by simp [givenOf], ?_⟩
                  rw [h4, hw2]
                  simp [pairsOf]

theorem eachUnmatched_ok [DecidableEq A] (given : List A) : ∀ (xs : List A) (w : St A),
    eachUnmatched (build truthy none_ kind p rows oneShot) keep given xs w =
      (.done, ⟨w.left, w.right, w.out ++
        (xs.filter (fun r => decide (r ∉ given))).map (fun r => (none_, r))⟩) := by
  intro xs
  induction xs with
  | nil => intro w; simp [eachUnmatched]
  | cons x xs ih =>
    intro w
    simp only [eachUnmatched]
    by_cases hx : x ∈ given
    · simp [hx, ih]
    · simp only [hx, if_false]
      have hn_ : (build truthy none_ kind p rows oneShot).none_ = none_ := rfl
      have hke : keep (E := E) (none_, x) w = (.go, { w with out := w.out ++ [(none_, x)] }) := rfl
      rw [hn_, hke]
      dsimp only
      rw [ih { w with out := w.out ++ [(none_, x)] }]
      simp [hx]

end

end Verif.JoinGen
