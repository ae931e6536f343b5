import Verif.Names.Model
import Std.Data.String.ToInt
/-! Helper lemmas: injectivity of `prefix_hash`, invariants of `gen_name`. -/
set_option autoImplicit false

namespace Verif.Names

theorem underscore_not_mem_repr (h : Int) : '_' ∉ h.repr.toList := by
  rw [Int.repr_eq_if]
  split
  · rw [Nat.toList_repr]
    exact Nat.underscore_not_in_toDigits
  · rw [String.toList_append]
    simp only [List.mem_append]
    rintro (hc | hc)
    · revert hc; decide
    · rw [Nat.toList_repr] at hc
      exact Nat.underscore_not_in_toDigits hc

theorem split_last {a b c d : List Char} {x : Char} (hb : x ∉ b) (hd : x ∉ d)
    (h : a ++ x :: b = c ++ x :: d) : a = c ∧ b = d := by
  induction a generalizing c with
  | nil =>
    cases c with
    | nil => simpa using h
    | cons y c =>
      simp only [List.nil_append, List.cons_append, List.cons.injEq] at h
      exact absurd (by rw [h.2]; simp) hb
  | cons y a ih =>
    cases c with
    | nil =>
      simp only [List.nil_append, List.cons_append, List.cons.injEq] at h
      exact absurd (by rw [← h.2]; simp) hd
    | cons z c =>
      simp only [List.cons_append, List.cons.injEq] at h
      have := ih h.2
      exact ⟨by rw [h.1, this.1], this.2⟩

theorem prefixedHash_inj {p q : String} {h k : Int} (e : prefixedHash p h = prefixedHash q k) :
    p = q ∧ h = k := by
  have e' := congrArg String.toList e
  simp only [prefixedHash, String.toList_append] at e'
  have hu : "_".toList = ['_'] := by decide
  rw [hu] at e'
  simp only [List.append_assoc, List.singleton_append] at e'
  have := split_last (underscore_not_mem_repr h) (underscore_not_mem_repr k) e'
  exact ⟨String.toList_inj.1 this.1, Int.repr_injective (String.toList_inj.1 this.2)⟩

/-- Invariant of the name tables. -/
structure Inv (st : GenState) : Prop where
  vals : ∀ k name, Dict.get? st.prefixedHashToName k = some name → name ∈ st.generated
  inj : ∀ k k' name, Dict.get? st.prefixedHashToName k = some name →
    Dict.get? st.prefixedHashToName k' = some name → k = k'

theorem inv_init : Inv GenState.init := ⟨by simp [GenState.init, Dict.get?], by
  simp [GenState.init, Dict.get?]⟩

theorem genLoop_spec (rnd : Nat → Char × Char) (ph : String) (n : Nat) :
    ∀ (name : String) (st : GenState), Inv st →
      Dict.get? st.prefixedHashToName ph = none →
      let r := genLoop rnd ph n name st
      Inv r.1 ∧
      (∀ k v, Dict.get? st.prefixedHashToName k = some v →
        Dict.get? r.1.prefixedHashToName k = some v) ∧
      (∀ x, x ∈ st.generated → x ∈ r.1.generated) ∧
      (∀ v, r.2 = some v → Dict.get? r.1.prefixedHashToName ph = some v ∧ v ∉ st.generated ∧
        ∀ x, x ∈ r.1.generated → x = v ∨ x ∈ st.generated) ∧
      (r.2 = none → r.1.prefixedHashToName = st.prefixedHashToName ∧
        r.1.generated = st.generated) := by
  induction n with
  | zero =>
    intro name st i hn
    simp only [genLoop]
    exact ⟨i, fun _ _ h => h, fun _ h => h, by simp, fun _ => by simp⟩
  | succ n ih =>
    intro name st i hn
    simp only [genLoop]
    split
    · have := ih (name ++ String.ofList ['_', (rnd st.rndPos).1, (rnd st.rndPos).2])
        { st with rndPos := st.rndPos + 1 } ⟨i.vals, i.inj⟩ hn
      exact this
    · rename_i hc
      generalize name ++ String.ofList ['_', (rnd st.rndPos).1, (rnd st.rndPos).2] = nm at hc
      have hnm : nm ∉ st.generated := by simpa using hc
      refine ⟨⟨?_, ?_⟩, ?_, ?_, ?_, ?_⟩
      · intro k v h
        simp only [Dict.get?_set] at h
        split at h
        · simp at h; simp [h]
        · exact List.mem_cons_of_mem _ (i.vals k v h)
      · intro k k' v h h'
        simp only [Dict.get?_set] at h h'
        split at h <;> split at h'
        · rename_i h1 h2
          rw [← eq_of_beq h1, ← eq_of_beq h2]
        · simp at h; subst h
          exact absurd (i.vals _ _ h') hnm
        · simp at h'; subst h'
          exact absurd (i.vals _ _ h) hnm
        · exact i.inj k k' v h h'
      · intro k v h
        simp only [Dict.get?_set]
        split
        · rename_i h1
          rw [← eq_of_beq h1, hn] at h
          simp at h
        · exact h
      · intro x hx; exact List.mem_cons_of_mem _ hx
      · intro v hv
        simp at hv; subst hv
        simp only [Dict.get?_set, beq_self_eq_true, if_true, true_and]
        exact ⟨hnm, fun x hx => List.mem_cons.1 hx⟩
      · simp

theorem genName_spec (rnd : Nat → Char × Char) (st : GenState) (p : String) (h : Int) (i : Inv st) :
    let r := genName rnd st p h
    Inv r.1 ∧
    (∀ k v, Dict.get? st.prefixedHashToName k = some v →
      Dict.get? r.1.prefixedHashToName k = some v) ∧
    (∀ x, x ∈ st.generated → x ∈ r.1.generated) ∧
    (∀ v, r.2 = some v → Dict.get? r.1.prefixedHashToName (prefixedHash p h) = some v ∧
        ∀ x, x ∈ r.1.generated → x = v ∨ x ∈ st.generated) ∧
    (r.2 = none → r.1.prefixedHashToName = st.prefixedHashToName ∧
        r.1.generated = st.generated) := by
  simp only [genName]
  cases hg : Dict.get? st.prefixedHashToName (prefixedHash p h) with
  | some v =>
    exact ⟨i, fun _ _ h => h, fun _ h => h, fun v' hv' => by
      simp at hv'; subst hv'; exact ⟨hg, fun x hx => .inr hx⟩, by simp⟩
  | none =>
    have := genLoop_spec rnd (prefixedHash p h) 10 p st i hg
    exact ⟨this.1, this.2.1, this.2.2.1, fun v hv =>
      ⟨(this.2.2.2.1 v hv).1, (this.2.2.2.1 v hv).2.2⟩, this.2.2.2.2⟩

theorem genNames_spec (rnd : Nat → Char × Char) (rs : List (String × Int)) :
    ∀ (st : GenState), Inv st →
    let r := genNames rnd st rs
    Inv r.1 ∧ r.2.length = rs.length ∧
    (∀ k v, Dict.get? st.prefixedHashToName k = some v →
      Dict.get? r.1.prefixedHashToName k = some v) ∧
    (∀ (n : Nat) p h v, rs[n]? = some (p, h) → r.2[n]? = some (some v) →
      Dict.get? r.1.prefixedHashToName (prefixedHash p h) = some v) := by
  induction rs with
  | nil => intro st i; exact ⟨i, rfl, fun _ _ h => h, by simp⟩
  | cons q rs ih =>
    intro st i
    obtain ⟨p, h⟩ := q
    have s1 := genName_spec rnd st p h i
    have s2 := ih _ s1.1
    simp only [genNames]
    refine ⟨s2.1, by simp [s2.2.1], fun k v hk => s2.2.2.1 k v (s1.2.1 k v hk), ?_⟩
    intro n p' h' v hn hv
    cases n with
    | zero =>
      simp only [List.getElem?_cons_zero, Option.some.injEq] at hn hv
      cases hn
      exact s2.2.2.1 _ _ (s1.2.2.2.1 v hv).1
    | succ n =>
      simp only [List.getElem?_cons_succ] at hn hv
      exact s2.2.2.2 n p' h' v hn hv

end Verif.Names
