import Verif.Join.Lemmas

/-!
# The generated join as nested loops
-/

set_option autoImplicit false

namespace Verif.Join

open Verif

variable {A V E : Type}

theorem filterE_ok {B : Type} (p : B → Except E Bool) (xs : List B)
    (h : ∀ x ∈ xs, ∃ b, p x = .ok b) : filterE p xs = .ok (xs.filter (fun x => isTrue (p x))) := by
  induction xs with
  | nil => rfl
  | cons x xs ih =>
    obtain ⟨b, hb⟩ := h x (by simp)
    rw [filterE, hb, ih (fun y hy => h y (by simp [hy]))]
    cases b <;> simp [hb, isTrue]

/-- The key of a row, when it can be computed. -/
def keyD (ts : List (Term A V E)) (row : A) : List V :=
  match keyOf ts row with
  | .ok k => k
  | .error _ => []

theorem keyOf_ok (ts : List (Term A V E)) (row : A) (h : ∀ t ∈ ts, ∃ w, t.eval row row = .ok w) :
    keyOf ts row = .ok (keyD ts row) := by
  have : ∃ k, keyOf ts row = .ok k := by
    induction ts with
    | nil => exact ⟨[], rfl⟩
    | cons t ts ih =>
      obtain ⟨w, hw⟩ := h t (by simp)
      obtain ⟨k, hk⟩ := ih (fun t ht => h t (by simp [ht]))
      exact ⟨w :: k, by simp [keyOf, hw, hk]⟩
  obtain ⟨k, hk⟩ := this
  simp [keyD, hk]

theorem hashItems_ok [BEq V] [EquivBEq V] (ts : List (Term A V E)) (rows : List A)
    (h : ∀ row ∈ rows, ∀ t ∈ ts, ∃ w, t.eval row row = .ok w) :
    ∀ d, ∃ d', hashItems ts d rows = .ok d' ∧ ∀ k,
      (Dict.get? d' k).getD [] = (Dict.get? d k).getD [] ++ rows.filter (fun r => keyD ts r == k) := by
  induction rows with
  | nil => exact fun d => ⟨d, rfl, by simp⟩
  | cons row rows ih =>
    intro d
    have hk := keyOf_ok ts row (h row (by simp))
    obtain ⟨d', h1, h2⟩ := ih (fun r hr => h r (by simp [hr]))
      (Dict.set d (keyD ts row) ((Dict.get? d (keyD ts row)).getD [] ++ [row]))
    refine ⟨d', by simp [hashItems, hk, h1], fun k => ?_⟩
    rw [h2 k, Dict.get?_set]
    by_cases hkk : (keyD ts row == k) = true
    · have hg : Dict.get? d (keyD ts row) = Dict.get? d k := Dict.get?_congr d _ _ hkk
      simp [hkk, hg]
    · simp [hkk]

/-- What the join condition leaves for a pair: keys equal, and the conditions of the inner loop. -/
def pairOk [BEq V] (truthy : V → Bool) (swapped : Bool) (hs : List (Term A V E × Term A V E))
    (cond : List (Atom A V E)) (row item : A) : Bool :=
  (keyD (hs.map Prod.snd) item == keyD (hs.map Prod.fst) row) &&
    isTrue (if swapped then allHold truthy item row cond else allHold truthy row item cond)

/-- The source gives every row the items with its key, and stays as it is. -/
def Gives [BEq V] (hs : List (Term A V E × Term A V E)) (src : Source A V) (left right : List A) :
    Prop :=
  ∀ row ∈ left, src.take (hs.map Prod.fst) row = .ok
    (right.filter (fun item => keyD (hs.map Prod.snd) item == keyD (hs.map Prod.fst) row), src)

theorem rowLoop_ok [BEq V] (truthy : V → Bool) (swapped : Bool)
    (hs : List (Term A V E × Term A V E)) (cond : List (Atom A V E)) (src : Source A V)
    (left right : List A) (hg : Gives hs src left right)
    (hc : ∀ row ∈ left, ∀ item ∈ right, ∃ b,
      (if swapped then allHold truthy item row cond else allHold truthy row item cond) = .ok b) :
    rowLoop truthy swapped (hs.map Prod.fst) cond src left =
      .ok (left.map (fun l => (l, right.filter (pairOk truthy swapped hs cond l)))) := by
  induction left with
  | nil => rfl
  | cons row rows ih =>
    have h1 := hg row (by simp)
    have h2 : matches_ truthy swapped cond row
        (right.filter (fun item => keyD (hs.map Prod.snd) item == keyD (hs.map Prod.fst) row)) =
        .ok (right.filter (pairOk truthy swapped hs cond row)) := by
      rw [matches_, filterE_ok]
      · rw [List.filter_filter]
        congr 1
        apply List.filter_congr
        intro x hx
        simp only [pairOk]
        rw [Bool.and_comm]
      · intro x hx
        exact hc row (by simp) x (List.mem_filter.1 hx).1
    rw [rowLoop, h1]
    simp only [h2, ih (fun r hr => hg r (by simp [hr])) (fun r hr => hc r (by simp [hr])),
      List.map_cons]

/-- The join when nothing raises and the right side can be read again for every left row. -/
theorem joinCore_ok [DecidableEq A] [BEq V] [EquivBEq V] (truthy : V → Bool) (none_ : A)
    (swapped : Bool) (how : How) (p : Parts A V E) (left right : List A) (oneShot : Bool)
    (hpre : allHold truthy none_ none_ p.pre = .ok true)
    (hrf : ∀ r ∈ right, ∃ b,
      allHold truthy r r (if swapped then p.leftColl else p.rightColl) = .ok b)
    (hlf : ∀ l ∈ left, ∃ b,
      allHold truthy l l (if swapped then p.rightColl else p.leftColl) = .ok b)
    (hrk : ∀ r ∈ right, ∀ h ∈ p.hashers, ∃ w, h.2.eval r r = .ok w)
    (hlk : ∀ l ∈ left, ∀ h ∈ p.hashers, ∃ w, h.1.eval l l = .ok w)
    (hc : ∀ l ∈ left, ∀ r ∈ right, ∃ b,
      (if swapped then allHold truthy r l (p.leftRow ++ p.rightRow ++ p.inner)
        else allHold truthy l r (p.leftRow ++ p.rightRow ++ p.inner)) = .ok b)
    (hreuse : p.hashers ≠ [] ∨ how = .outer ∨
      (oneShot = false ∧ (if swapped then p.leftColl else p.rightColl) = []) ∨ left.length ≤ 1) :
    joinCore truthy none_ swapped how p left right oneShot =
      (let right' := right.filter (fun r =>
        isTrue (allHold truthy r r (if swapped then p.leftColl else p.rightColl)))
      let left' := left.filter (fun l =>
        isTrue (allHold truthy l l (if swapped then p.rightColl else p.leftColl)))
      let l := left'.map (fun l => (l, right'.filter
        (pairOk truthy swapped p.hashers (p.leftRow ++ p.rightRow ++ p.inner) l)))
      match how with
      | .inner => .ok (innerPairs l)
      | .outer => .ok (addRightPart none_ (leftPairs none_ swapped l) right')
      | _ => .ok (leftPairs none_ swapped l)) := by
  have hR := filterE_ok (fun r => allHold truthy r r (if swapped then p.leftColl else p.rightColl))
    right hrf
  have hL := filterE_ok (fun l => allHold truthy l l (if swapped then p.rightColl else p.leftColl))
    left hlf
  simp only [joinCore, hpre, hR, hL]
  generalize hR' : right.filter (fun r =>
        isTrue (allHold truthy r r (if swapped then p.leftColl else p.rightColl))) = right'
  generalize hL' : left.filter (fun l =>
        isTrue (allHold truthy l l (if swapped then p.rightColl else p.leftColl))) = left'
  have mR : ∀ r ∈ right', r ∈ right := by
    intro r hr; rw [← hR'] at hr; exact (List.mem_filter.1 hr).1
  have mL : ∀ l ∈ left', l ∈ left := by
    intro l hl; rw [← hL'] at hl; exact (List.mem_filter.1 hl).1
  have hc' : ∀ row ∈ left', ∀ item ∈ right', ∃ b,
      (if swapped then allHold truthy item row (p.leftRow ++ p.rightRow ++ p.inner)
        else allHold truthy row item (p.leftRow ++ p.rightRow ++ p.inner)) = .ok b :=
    fun row hrow item hitem => hc row (mL row hrow) item (mR item hitem)
  by_cases hh : p.hashers = []
  · have hplain : ∀ (os : Bool), (os = false ∨ left'.length ≤ 1) →
        rowLoop truthy swapped (p.hashers.map Prod.fst) (p.leftRow ++ p.rightRow ++ p.inner)
          (if os then Source.iter right' else Source.items right') left' =
        .ok (left'.map (fun l => (l, right'.filter
          (pairOk truthy swapped p.hashers (p.leftRow ++ p.rightRow ++ p.inner) l)))) := by
      intro os hos
      have hit : rowLoop truthy swapped (p.hashers.map Prod.fst)
          (p.leftRow ++ p.rightRow ++ p.inner) (Source.items right') left' =
          .ok (left'.map (fun l => (l, right'.filter
          (pairOk truthy swapped p.hashers (p.leftRow ++ p.rightRow ++ p.inner) l)))) := by
        apply rowLoop_ok _ _ _ _ _ _ _ _ hc'
        intro row hrow
        simp only [Source.take, hh, keyD, keyOf, List.map_nil, BEq.rfl]
        rw [List.filter_eq_self.2 (by simp)]
      cases os with
      | false => simpa using hit
      | true =>
        rcases hos with hos | hos
        · exact absurd hos (by simp)
        · rw [← hit]
          match left', hos with
          | [], _ => rfl
          | [x], _ => simp [rowLoop, Source.take]
    have hcond : ((oneShot || !(if swapped then p.leftColl else p.rightColl).isEmpty) &&
        !decide (how = .outer)) = false ∨ left'.length ≤ 1 := by
      rcases hreuse with h | h | ⟨h1, h2⟩ | h
      · exact absurd hh h
      · left; simp [h]
      · left; simp [h1, h2]
      · right
        rw [← hL']
        exact Nat.le_trans (List.length_filter_le _ _) h
    simp only [hh, List.isEmpty_nil, if_true]
    have := hplain _ hcond
    rw [hh] at this
    rw [this]
    cases how <;> rfl
  · have hne : p.hashers.isEmpty = false := by simpa using hh
    obtain ⟨d, hd1, hd2⟩ := hashItems_ok (p.hashers.map Prod.snd) right'
      (fun r hr t ht => by
        obtain ⟨h, hm, rfl⟩ := List.mem_map.1 ht
        exact hrk r (mR r hr) h hm) []
    simp only [hne, Bool.false_eq_true, if_false, hd1]
    rw [rowLoop_ok truthy swapped p.hashers _ _ left' right' ?_ hc']
    · cases how <;> rfl
    intro row hrow
    have hk := keyOf_ok (p.hashers.map Prod.fst) row (fun t ht => by
      obtain ⟨h, hm, rfl⟩ := List.mem_map.1 ht
      exact hlk row (mL row hrow) h hm)
    simp only [Source.take, hk, hd2]
    simp [Dict.get?]

end Verif.Join
