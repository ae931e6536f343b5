/-!
# Python `dict` as an insertion ordered association list

Modelled behaviour (CPython >= 3.7, the language level the repo targets):
`d[k] = v` on a present key keeps the position *and the original key object* and replaces the
value; on a new key appends.  `d.pop(k)` removes the pair.  Key comparison is a Boolean equality
(`==` together with a consistent `__hash__`, which Python requires of dict keys).
-/
set_option autoImplicit false

namespace Verif.Dict

variable {K V : Type _} [BEq K]

/-- `d.get(k)` -/
def get? : List (K × V) → K → Option V
  | [], _ => none
  | (k', v) :: d, k => if k' == k then some v else get? d k

/-- `k in d` -/
def has (d : List (K × V)) (k : K) : Bool := (get? d k).isSome

/-- `d[k] = v` -/
def set : List (K × V) → K → V → List (K × V)
  | [], k, v => [(k, v)]
  | (k', v') :: d, k, v => if k' == k then (k', v) :: d else (k', v') :: set d k v

/-- `del d[k]` / the dict left by `d.pop(k)` -/
def erase : List (K × V) → K → List (K × V)
  | [], _ => []
  | (k', v') :: d, k => if k' == k then d else (k', v') :: erase d k

/-- `list(d)` -/
def keys (d : List (K × V)) : List K := d.map Prod.fst

section lemmas

theorem get?_set [PartialEquivBEq K] (d : List (K × V)) (k k' : K) (v : V) :
    get? (set d k v) k' = if k == k' then some v else get? d k' := by
  induction d with
  | nil => simp [set, get?]
  | cons p d ih =>
    obtain ⟨a, b⟩ := p
    simp only [set]
    by_cases h : a == k
    · simp only [h, if_true, get?]
      by_cases h2 : a == k'
      · have : k == k' := PartialEquivBEq.trans (PartialEquivBEq.symm h) h2
        simp [h2, this]
      · have : (k == k') = false := by
          cases hk : k == k' with
          | false => rfl
          | true => exact absurd (PartialEquivBEq.trans h hk) h2
        simp [h2, this]
    · simp only [h, if_false, get?, ih, Bool.false_eq_true]
      by_cases h2 : a == k'
      · have : (k == k') = false := by
          cases hk : k == k' with
          | false => rfl
          | true => exact absurd (PartialEquivBEq.trans h2 (PartialEquivBEq.symm hk)) h
        simp [h2, this]
      · simp [h2]

theorem get?_congr [PartialEquivBEq K] (d : List (K × V)) (k k' : K) (h : (k == k') = true) :
    get? d k = get? d k' := by
  induction d with
  | nil => rfl
  | cons p d ih =>
    obtain ⟨a, b⟩ := p
    have : (a == k) = (a == k') := by
      rw [Bool.eq_iff_iff]
      exact ⟨fun h' => PartialEquivBEq.trans h' h,
        fun h' => PartialEquivBEq.trans h' (PartialEquivBEq.symm h)⟩
    simp only [get?, this, ih]

theorem get?_isSome_iff (d : List (K × V)) (k : K) :
    (get? d k).isSome ↔ ∃ a ∈ keys d, (a == k) = true := by
  induction d with
  | nil => simp [get?, keys]
  | cons p d ih =>
    obtain ⟨a, b⟩ := p
    simp only [get?, keys, List.map_cons, List.mem_cons]
    by_cases h : a == k
    · simp [h]
    · simp only [h, Bool.false_eq_true, if_false, ih]
      simp [keys, h]

theorem set_keys_of_has (d : List (K × V)) (k : K) (v : V) (h : has d k = true) :
    keys (set d k v) = keys d := by
  induction d with
  | nil => simp [has, get?] at h
  | cons p d ih =>
    obtain ⟨a, b⟩ := p
    by_cases h2 : a == k
    · simp [set, h2, keys]
    · have : has d k = true := by simpa [has, get?, h2] using h
      have := ih this
      simp [set, h2, keys] at this ⊢
      exact this

theorem set_of_not_has (d : List (K × V)) (k : K) (v : V) (h : has d k = false) :
    set d k v = d ++ [(k, v)] := by
  induction d with
  | nil => simp [set]
  | cons p d ih =>
    obtain ⟨a, b⟩ := p
    by_cases h2 : a == k
    · simp [has, get?, h2] at h
    · have : has d k = false := by simpa [has, get?, h2] using h
      simp [set, h2, ih this]

theorem get?_append (d e : List (K × V)) (k : K) :
    get? (d ++ e) k = (get? d k).or (get? e k) := by
  induction d with
  | nil => simp [get?]
  | cons p d ih =>
    obtain ⟨a, b⟩ := p
    by_cases h : a == k <;> simp [get?, h, ih]

theorem erase_keys [LawfulBEq K] (d : List (K × V)) (k : K) :
    keys (erase d k) = (keys d).erase k := by
  induction d with
  | nil => simp [erase, keys]
  | cons p d ih =>
    obtain ⟨a, b⟩ := p
    by_cases h : a == k
    · have := eq_of_beq h; subst this
      simp [erase, keys]
    · have h' : (a == k) = false := by simpa using h
      simp [erase, keys, h'] at ih ⊢
      exact ih

theorem get?_erase [LawfulBEq K] (d : List (K × V)) (k k' : K) (hn : (keys d).Nodup) :
    get? (erase d k) k' = if k == k' then none else get? d k' := by
  induction d with
  | nil => simp [erase, get?]
  | cons p d ih =>
    obtain ⟨a, b⟩ := p
    simp only [keys, List.map_cons, List.nodup_cons] at hn
    by_cases h : a == k
    · have := eq_of_beq h; subst this
      simp only [erase, beq_self_eq_true, if_true, get?]
      by_cases h2 : a == k'
      · have := eq_of_beq h2; subst this
        simp only [beq_self_eq_true, if_true]
        cases hg : get? d a with
        | none => rfl
        | some v =>
          have : (get? d a).isSome := by simp [hg]
          obtain ⟨x, hx, hxa⟩ := (get?_isSome_iff d a).1 this
          have := eq_of_beq hxa; subst this
          exact absurd hx hn.1
      · simp [h2]
    · have h' : (a == k) = false := by simpa using h
      simp only [erase, h', Bool.false_eq_true, if_false, get?, ih hn.2]
      by_cases h2 : a == k'
      · have := eq_of_beq h2; subst this
        have hka : (k == a) = false := by
          cases hk : k == a with
          | false => rfl
          | true => exact absurd (BEq.symm hk) h
        simp [hka]
      · simp [h2]

end lemmas

/-- Assigning the value a key already has changes nothing. -/
theorem set_same (d : List (K × V)) (k : K) (v : V) (h : get? d k = some v) : set d k v = d := by
  induction d with
  | nil => simp [get?] at h
  | cons p d ih =>
    obtain ⟨a, b⟩ := p
    simp only [get?] at h
    simp only [set]
    by_cases hk : a == k
    · simp_all
    · simp_all

end Verif.Dict
