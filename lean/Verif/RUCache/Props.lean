import Verif.RUCache.Lemmas
/-!
# C01, C02, C03: the recently-used cache

C01: bounded size, no exception.  C02: it is a map whose only losses are announced.
C03: it is a second-chance (clock) cache.
-/
set_option autoImplicit false

namespace Verif.RUCache

variable {K V : Type} [BEq K] [LawfulBEq K]

/-! ## C01 -/

/-- The observation is an exception. -/
def Obs.isRaised : Obs K V → Bool
  | .raised _ _ => true
  | _ => false

theorem spec_no_raise (n : Nat) (ops : List (Op K V)) : ∀ (q : Spec.Queue K V),
    ∀ o ∈ (Spec.run n q ops).2, Obs.isRaised o = false := by
  induction ops with
  | nil => intro q o ho; simp [Spec.run] at ho
  | cons op ops ih =>
    intro q o ho
    simp only [Spec.run, List.mem_cons] at ho
    rcases ho with rfl | ho
    · cases op with
      | get k => rfl
      | has k b => rfl
      | set k v =>
        simp only [Spec.step]
        split
        · rfl
        · split <;> rfl
    · exact ih _ o ho

/-- **C01.** For every capacity `n >= 1` and every history of calls, the cache holds at most `n`
entries, its deque holds at most `n` keys, and no call raised. -/
theorem C01_bounded (n : Nat) (hn : 1 ≤ n) (ops : List (Op K V)) :
    (run (init (n : Int)) ops).1.data.length ≤ n ∧
    (run (init (n : Int)) ops).1.keys.length ≤ n ∧
    ∀ o ∈ (run (init (n : Int)) ops).2, Obs.isRaised o = false := by
  have ⟨r, ho⟩ := run_rel ops (rel_init (K := K) (V := V) n hn)
  refine ⟨rel_data_length r, ?_, ?_⟩
  · have h1 := congrArg List.length r.keys
    have h2 := r.len
    simp at h1
    omega
  · rw [ho]; exact spec_no_raise n ops []

/-- The bound is reached, with evictions: capacity 2, three keys set. -/
example : (run (init 2 : Cache Nat Nat) [.set 1 10, .set 2 20, .set 3 30]).1.data.length = 2 := by
  decide

/-- Capacity 0 (outside the hypothesis of `C01_bounded`): storing any key raises `IndexError`, and
leaves the value behind in the dict. -/
theorem C01_zero_capacity_raises (k : K) (v : V) :
    (step (init 0 : Cache K V) (.set k v)).2 = .raised .indexError [] ∧
    (step (init 0 : Cache K V) (.set k v)).1.data = [(k, v)] := by
  constructor <;> rfl

/-- A negative capacity never evicts: the dict grows with every new key. -/
theorem C01_negative_capacity_unbounded (m : Int) (hm : m < 0) (ks : List K) (hnd : ks.Nodup)
    (v : V) : (run (init m : Cache K V) (ks.map fun k => .set k v)).1.data.length = ks.length := by
  suffices h : ∀ (ks : List K) (c : Cache K V), c.maxSize = m → (Dict.keys c.data ++ ks).Nodup →
      (run c (ks.map fun k => .set k v)).1.data.length = c.data.length + ks.length by
    have := h ks (init m) rfl (by simpa [init, Dict.keys] using hnd)
    simpa [init] using this
  intro ks
  induction ks with
  | nil => intro c _ _; simp [run]
  | cons k ks ih =>
    intro c hc hnd
    have hk : Dict.has c.data k = false := by
      cases h : Dict.has c.data k with
      | false => rfl
      | true =>
        obtain ⟨a, ha, hak⟩ := (Dict.get?_isSome_iff c.data k).1 h
        have := eq_of_beq hak; subst this
        exact absurd rfl ((List.nodup_append.1 hnd).2.2 a ha a (by simp))
    have hgt : (c.keys.length : Int) > c.maxSize - 1 := by rw [hc]; omega
    have hf : (c.maxSize + 1).toNat = 0 := by rw [hc]; omega
    have hs : step c (.set k v) =
        ({ c with keys := k :: c.keys, data := Dict.set c.data k v }, .setDone []) := by
      simp only [step, set, hk, Bool.false_eq_true, if_false, hgt, if_true, evict, hf, evictLoop]
    simp only [List.map_cons, run, hs]
    rw [ih]
    · simp only [Dict.set_of_not_has _ _ v hk, List.length_append, List.length_cons,
        List.length_nil]
      omega
    · exact hc
    · rw [Dict.set_of_not_has _ _ v hk]
      simpa [Dict.keys] using hnd

/-! ## C02 -/

/-- Specification: what a client expects key `x` to hold, from the history of calls and the
announced evictions alone: the value most recently stored, or nothing once an eviction of `x`
has been announced after that. -/
def expect (x : K) (cur : Option V) : List (Op K V × Obs K V) → Option V
  | [] => cur
  | (.set k v, .setDone ev) :: h =>
    expect x (if (ev.map Prod.fst).contains x then none else if k == x then some v else cur) h
  | _ :: h => expect x cur h

theorem expect_append (x : K) (h h' : List (Op K V × Obs K V)) : ∀ cur,
    expect x cur (h ++ h') = expect x (expect x cur h) h' := by
  induction h with
  | nil => intro cur; rfl
  | cons p h ih =>
    intro cur
    obtain ⟨op, o⟩ := p
    cases op <;> cases o <;> simp [expect, ih]

theorem expect_lookup {n : Nat} (ops : List (Op K V)) (x : K) :
    ∀ {c : Cache K V} {q : Spec.Queue K V}, Rel n c q →
    expect x (Spec.lookup q x) (ops.zip (Spec.run n q ops).2) =
      Spec.lookup (Spec.run n q ops).1 x := by
  induction ops with
  | nil => intro c q _; rfl
  | cons op ops ih =>
    intro c q r
    have hr := (step_rel r op).1
    have hl := spec_lookup_step r op x
    simp only [Spec.run, List.zip_cons_cons]
    rw [← ih hr, hl]
    cases op with
    | get k => rfl
    | has k b => rfl
    | set k v =>
      cases ho : (Spec.step n q (.set k v)).2 <;> rfl

/-- **C02.** For every capacity `n >= 1`, every history and every key `x`: the stored value is the
one the client expects from its own calls and the announced evictions; a `get` returns it and
`has` reports it; and every announced eviction `(k, v)` carries the value `k` had. -/
theorem C02_map_with_announced_losses (n : Nat) (hn : 1 ≤ n) (ops : List (Op K V)) :
    let final := run (init (n : Int)) ops
    let hist := ops.zip final.2
    (∀ x, Dict.get? final.1.data x = expect x none hist) ∧
    (∀ x, (step final.1 (.get x)).2 = .got (expect x none hist)) ∧
    (∀ x b, (step final.1 (.has x b)).2 = .hasRes (expect x none hist).isSome) ∧
    (∀ op ev, (step final.1 op).2 = .setDone ev → ∀ p ∈ ev, expect p.1 none hist = some p.2) := by
  intro final hist
  have r0 := rel_init (K := K) (V := V) n hn
  have ⟨r, ho⟩ := run_rel ops r0
  have hx : ∀ x, expect x none hist = Spec.lookup (Spec.run n [] ops).1 x := by
    intro x
    have := expect_lookup ops x r0
    simp only [Spec.lookup, List.find?_nil, Option.map_none] at this
    rw [← ho] at this
    exact this
  refine ⟨?_, ?_, ?_, ?_⟩
  · intro x; rw [hx]; exact r.data x
  · intro x
    rw [hx, (step_rel r (.get x)).2]; rfl
  · intro x b
    rw [hx, (step_rel r (.has x b)).2]; rfl
  · intro op ev h p hp
    rw [hx]
    rw [(step_rel r op).2] at h
    exact evicted_value r op ev h p hp

/-- A history with an eviction: key 1 is announced as evicted with its value 10. -/
example : (step (run (init 2 : Cache Nat Nat) [.set 1 10, .set 2 20]).1 (.set 3 30)).2
    = .setDone [(1, 10)] := by rfl

/-! ## C03 -/

/-- **C03.** For every capacity `n >= 1` and every history, all observable behaviour (returned
values and evictions) is that of the second-chance queue `Spec`. -/
theorem C03_refines_clock (n : Nat) (hn : 1 ≤ n) (ops : List (Op K V)) :
    (run (init (n : Int)) ops).2 = (Spec.run n [] ops).2 :=
  (run_rel ops (rel_init n hn)).2

/-- The meaning of "second chance" in the specification: a used entry is evicted only if every
entry was used, and then it is the oldest; an unused victim is the oldest unused entry. -/
theorem C03_victim (q : Spec.Queue K V) (q' : Spec.Queue K V) (k : K) (v : V)
    (h : Spec.makeRoom q = (q', some (k, v))) :
    ∃ pre e post, q = pre ++ e :: post ∧ e.key = k ∧ e.val = v ∧
      ((e.used = false ∧ ∀ x ∈ pre, x.used = true) ∨ (pre = [] ∧ ∀ x ∈ q, x.used = true)) := by
  have hq : q = q.takeWhile (·.used) ++ q.dropWhile (·.used) :=
    (List.takeWhile_append_dropWhile).symm
  have htake : ∀ e ∈ q.takeWhile (·.used), e.used = true := fun e he =>
    of_mem_takeWhile (fun e : Spec.Entry K V => e.used) q e he
  unfold Spec.makeRoom at h
  cases hd : q.dropWhile (·.used) with
  | cons e rest =>
    rw [hd] at h
    simp only [Prod.mk.injEq, Option.some.injEq] at h
    have he : e.used = false := by
      have := List.head?_dropWhile_not (·.used) q
      simp [hd] at this
      exact this
    exact ⟨_, e, rest, by rw [← hd]; exact hq, h.2.1, h.2.2, .inl ⟨he, htake⟩⟩
  | nil =>
    rw [hd] at h hq
    rw [List.append_nil] at hq
    cases q with
    | nil => simp at h
    | cons e rest =>
      simp only [Prod.mk.injEq, Option.some.injEq] at h
      refine ⟨[], e, rest, rfl, h.2.1, h.2.2, .inr ⟨rfl, ?_⟩⟩
      intro x hx
      rw [hq] at hx
      exact htake x hx

/-- Reading key 1 saves it: with capacity 2, key 2 is the victim although key 1 is older. -/
example : (run (init 2 : Cache Nat Nat) [.set 1 10, .set 2 20, .get 1, .set 3 30]).2
    = [.setDone [], .setDone [], .got (some 10), .setDone [(2, 20)]] := by rfl

/-- All used: every mark is cleared, and the oldest goes. -/
example : (run (init 2 : Cache Nat Nat) [.set 1 10, .set 2 20, .get 1, .get 2, .set 3 30]).2
    = [.setDone [], .setDone [], .got (some 10), .got (some 20), .setDone [(1, 10)]] := by rfl

end Verif.RUCache
