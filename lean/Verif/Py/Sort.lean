/-!
# Python's `sorted`

`sorted(xs)` is a stable sort that only uses `<`.  We model it by insertion sort: any stable sort
returns the same list (theorem `sorted_unique`).
-/
set_option autoImplicit false

namespace Verif.PySort

variable {α : Type _}

/-- Insert `x` in front of the first element that is not smaller. -/
def insertBy (lt : α → α → Bool) (x : α) : List α → List α
  | [] => [x]
  | y :: ys => if lt y x then y :: insertBy lt x ys else x :: y :: ys

/-- `sorted(xs)` for the comparison `lt`. -/
def sorted (lt : α → α → Bool) : List α → List α
  | [] => []
  | x :: xs => insertBy lt x (sorted lt xs)

/-- `lt` is the strict part of a total preorder, what Python requires for a meaningful sort. -/
structure WeakOrder (lt : α → α → Bool) : Prop where
  asymm : ∀ a b, lt a b = true → lt b a = false
  negTrans : ∀ a b c, lt a b = false → lt b c = false → lt a c = false

theorem insertBy_perm (lt : α → α → Bool) (x : α) (l : List α) :
    (insertBy lt x l).Perm (x :: l) := by
  induction l with
  | nil => exact List.Perm.refl _
  | cons y ys ih =>
    simp only [insertBy]
    split
    · exact (ih.cons y).trans (List.Perm.swap x y ys)
    · exact List.Perm.refl _

theorem sorted_perm (lt : α → α → Bool) (l : List α) : (sorted lt l).Perm l := by
  induction l with
  | nil => exact List.Perm.refl _
  | cons x xs ih => exact (insertBy_perm lt x _).trans (ih.cons x)

theorem insertBy_pairwise {lt : α → α → Bool} (w : WeakOrder lt) (x : α) (l : List α)
    (h : l.Pairwise (fun a b => lt b a = false)) :
    (insertBy lt x l).Pairwise (fun a b => lt b a = false) := by
  induction l with
  | nil => simp [insertBy]
  | cons y ys ih =>
    simp only [insertBy]
    rw [List.pairwise_cons] at h
    split
    · rename_i hyx
      rw [List.pairwise_cons]
      refine ⟨?_, ih h.2⟩
      intro b hb
      rcases List.mem_cons.1 ((insertBy_perm lt x ys).mem_iff.1 hb) with rfl | hb
      · exact w.asymm _ _ hyx
      · exact h.1 b hb
    · rename_i hyx
      have hyx' : lt y x = false := by simpa using hyx
      rw [List.pairwise_cons, List.pairwise_cons]
      refine ⟨?_, h⟩
      intro b hb
      rcases List.mem_cons.1 hb with rfl | hb
      · exact hyx'
      · exact w.negTrans _ _ _ (h.1 b hb) hyx'

theorem sorted_pairwise {lt : α → α → Bool} (w : WeakOrder lt) (l : List α) :
    (sorted lt l).Pairwise (fun a b => lt b a = false) := by
  induction l with
  | nil => exact .nil
  | cons x xs ih => exact insertBy_pairwise w x _ ih

theorem insertBy_filter {lt : α → α → Bool} (p : α → Bool)
    (hp : ∀ a b, p a = true → p b = true → lt a b = false) (x : α) (l : List α) :
    (insertBy lt x l).filter p = (x :: l).filter p := by
  induction l with
  | nil => rfl
  | cons y ys ih =>
    simp only [insertBy]
    split
    · rename_i hyx
      rw [List.filter_cons, ih]
      by_cases hx : p x = true
      · have hy : p y = false := by
          cases h : p y with
          | false => rfl
          | true => rw [hp y x h hx] at hyx; simp at hyx
        simp [List.filter_cons, hx, hy]
      · simp [List.filter_cons, hx]
    · rfl

/-- Stability: elements none of which is smaller than another keep their order. -/
theorem sorted_stable {lt : α → α → Bool} (p : α → Bool)
    (hp : ∀ a b, p a = true → p b = true → lt a b = false) (l : List α) :
    (sorted lt l).filter p = l.filter p := by
  induction l with
  | nil => rfl
  | cons x xs ih =>
    simp only [sorted]
    rw [insertBy_filter p hp, List.filter_cons, List.filter_cons, ih]

/-- A list that is a permutation of `l`, ascending, and keeps the order of equivalent elements is
`sorted lt l`: the three properties determine the result of Python's `sorted`. -/
theorem sorted_unique {lt : α → α → Bool} (w : WeakOrder lt) (r l : List α)
    (h1 : r.Pairwise (fun a b => lt b a = false))
    (h2 : ∀ x, r.filter (fun y => !lt x y && !lt y x) = l.filter (fun y => !lt x y && !lt y x)) :
    r = sorted lt l := by
  have irr : ∀ a, lt a a = false := fun a => by
    cases h : lt a a with
    | false => rfl
    | true => have := w.asymm a a h; simp [h] at this
  have eqv : ∀ x a b, (!lt x a && !lt a x) = true → (!lt x b && !lt b x) = true →
      lt a b = false := by
    intro x a b ha hb
    simp only [Bool.and_eq_true, Bool.not_eq_true'] at ha hb
    exact w.negTrans a x b ha.2 hb.1
  have key : ∀ (s t : List α), s.Pairwise (fun a b => lt b a = false) →
      t.Pairwise (fun a b => lt b a = false) →
      (∀ x, s.filter (fun y => !lt x y && !lt y x) = t.filter (fun y => !lt x y && !lt y x)) →
      s = t := by
    intro s
    induction s with
    | nil =>
      intro t _ _ hf
      cases t with
      | nil => rfl
      | cons b t =>
        have := hf b
        simp [List.filter_cons, irr] at this
    | cons a s ih =>
      intro t hs ht hf
      cases t with
      | nil =>
        have := hf a
        simp [List.filter_cons, irr] at this
      | cons b t =>
        rw [List.pairwise_cons] at hs ht
        -- the heads are equivalent
        have hab : lt a b = false ∧ lt b a = false := by
          constructor
          · -- a occurs in b :: t
            have : a ∈ (b :: t).filter (fun y => !lt a y && !lt y a) := by
              rw [← hf a]; simp [irr]
            rcases List.mem_cons.1 (List.mem_filter.1 this).1 with rfl | h
            · exact irr _
            · exact ht.1 a h
          · have : b ∈ (a :: s).filter (fun y => !lt b y && !lt y b) := by
              rw [hf b]; simp [irr]
            rcases List.mem_cons.1 (List.mem_filter.1 this).1 with rfl | h
            · exact irr _
            · exact hs.1 b h
        have he : a = b := by
          have := hf a
          simp [List.filter_cons, irr, hab.1, hab.2] at this
          exact this.1
        subst he
        congr 1
        refine ih t hs.2 ht.2 ?_
        intro x
        have := hf x
        simp only [List.filter_cons] at this
        split at this
        · exact (List.cons.inj this).2
        · exact this
  refine key r _ h1 (sorted_pairwise w l) ?_
  intro x
  rw [h2 x, sorted_stable]
  exact eqv x

/-- `sorted(xs, reverse=rev)`: with `reverse` it is the sort of the reversed list, reversed, so that equivalent
elements keep their order. -/
def pySorted (lt : α → α → Bool) (rev : Bool) (xs : List α) : List α :=
  if rev then (sorted lt xs.reverse).reverse else sorted lt xs

/-- What is expected of a sort: a permutation, ascending or (`rev`) descending, with equivalent elements in the order
of the original. -/
structure SortOf (lt : α → α → Bool) (rev : Bool) (xs r : List α) : Prop where
  perm : r.Perm xs
  ordered : r.Pairwise (fun a b => if rev then lt a b = false else lt b a = false)
  stable : ∀ x, r.filter (fun y => !lt x y && !lt y x) = xs.filter (fun y => !lt x y && !lt y x)

theorem pySorted_ok {lt : α → α → Bool} (w : WeakOrder lt) (rev : Bool) (xs : List α) :
    SortOf lt rev xs (pySorted lt rev xs) := by
  have eqv : ∀ x a b, (!lt x a && !lt a x) = true → (!lt x b && !lt b x) = true →
      lt a b = false := by
    intro x a b ha hb
    simp only [Bool.and_eq_true, Bool.not_eq_true'] at ha hb
    exact w.negTrans a x b ha.2 hb.1
  cases rev with
  | false =>
    refine ⟨sorted_perm lt xs, ?_, fun x => sorted_stable _ (eqv x) xs⟩
    simpa [pySorted] using sorted_pairwise w xs
  | true =>
    refine ⟨((List.reverse_perm _).trans (sorted_perm lt _)).trans (List.reverse_perm _), ?_, fun x => ?_⟩
    · simpa [pySorted, List.pairwise_reverse] using sorted_pairwise w xs.reverse
    · simp only [pySorted, if_true]
      rw [List.filter_reverse, sorted_stable _ (eqv x), List.filter_reverse, List.reverse_reverse]

/-- The three properties leave one result only. -/
theorem SortOf.unique {lt : α → α → Bool} (w : WeakOrder lt) {rev : Bool} {xs r : List α} (h : SortOf lt rev xs r) :
    r = pySorted lt rev xs := by
  cases rev with
  | false => exact sorted_unique w r xs (by simpa using h.ordered) h.stable
  | true =>
    have := sorted_unique w r.reverse xs.reverse (by simpa [List.pairwise_reverse] using h.ordered)
      (fun x => by rw [List.filter_reverse, List.filter_reverse, h.stable x])
    simp only [pySorted, if_true]
    rw [← this, List.reverse_reverse]

end Verif.PySort
