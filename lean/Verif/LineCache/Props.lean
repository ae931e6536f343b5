import Verif.LineCache.Model
import Verif.RUCache.Lemmas
/-!
# C04 (source-line cache bounded and consistent) and C05 (a published name shows its own code)
-/
set_option autoImplicit false

namespace Verif.LineCache

open RUCache (Cache Rel lookup_isSome)
open RUCache.Spec (Queue lookup)

/-! ## Invariant -/

/-- Invariant relating `linecache` to the cache of known names; `hist` is everything published. -/
structure Inv (n : Nat) (s : State) (q : Queue String Unit) (hist : List (String × String)) :
    Prop where
  rel : Rel n s.known q
  nodup : (Dict.keys s.lines).Nodup
  same : ∀ f, f ∈ Dict.keys s.lines ↔ f ∈ q.map (·.key)
  src : ∀ p ∈ s.lines, p ∈ hist

theorem mem_set {d : List (String × String)} {k v : String} {p : String × String}
    (h : p ∈ Dict.set d k v) : p ∈ d ∨ p = (k, v) := by
  induction d with
  | nil => simp [Dict.set] at h; exact .inr h
  | cons a d ih =>
    obtain ⟨x, y⟩ := a
    by_cases hx : x = k
    · subst hx
      simp only [Dict.set, beq_self_eq_true, if_true, List.mem_cons] at h
      rcases h with h | h
      · exact .inr h
      · exact .inl (List.mem_cons_of_mem _ h)
    · have hx' : (x == k) = false := by simpa using hx
      simp only [Dict.set, hx', Bool.false_eq_true, if_false, List.mem_cons] at h
      rcases h with h | h
      · exact .inl (by rw [h]; simp)
      · rcases ih h with h | h
        · exact .inl (List.mem_cons_of_mem _ h)
        · exact .inr h

theorem mem_erase {d : List (String × String)} {k : String} {p : String × String}
    (h : p ∈ Dict.erase d k) : p ∈ d := by
  induction d with
  | nil => simp [Dict.erase] at h
  | cons a d ih =>
    obtain ⟨x, y⟩ := a
    by_cases hx : x = k
    · subst hx
      simp only [Dict.erase, beq_self_eq_true, if_true] at h
      exact List.mem_cons_of_mem _ h
    · have hx' : (x == k) = false := by simpa using hx
      simp only [Dict.erase, hx', Bool.false_eq_true, if_false, List.mem_cons] at h
      rcases h with h | h
      · rw [h]; simp
      · exact List.mem_cons_of_mem _ (ih h)

theorem mem_keys_set {d : List (String × String)} {k v f : String} :
    f ∈ Dict.keys (Dict.set d k v) ↔ f = k ∨ f ∈ Dict.keys d := by
  cases h : Dict.has d k with
  | true =>
    rw [Dict.set_keys_of_has d k v h]
    obtain ⟨a, ha, hak⟩ := (Dict.get?_isSome_iff d k).1 h
    have := eq_of_beq hak; subst this
    constructor
    · exact .inr
    · rintro (rfl | h)
      · exact ha
      · exact h
  | false =>
    rw [Dict.set_of_not_has d k v h]
    simp [Dict.keys, or_comm]

/-- Publishing one file: what happens in terms of the clock queue. -/
theorem publishOne_eq {n : Nat} {s : State} {q : Queue String Unit} {hist}
    (i : Inv n s q hist) (file : String × String) :
    (file.1 ∈ q.map (·.key) ∧ publishOne s file =
        { s with known := (RUCache.step s.known (.has file.1 true)).1 }) ∨
    (file.1 ∉ q.map (·.key) ∧ q.length < n ∧ publishOne s file =
        { lines := Dict.set s.lines file.1 file.2,
          known := (RUCache.step s.known (.set file.1 ())).1 }) ∨
    (file.1 ∉ q.map (·.key) ∧ q.length = n ∧ ∃ e ∈ q.map (·.key), e ≠ file.1 ∧
      (RUCache.Spec.step n q (.set file.1 ())).2 = .setDone [(e, ())] ∧ publishOne s file =
        { lines := Dict.erase (Dict.set s.lines file.1 file.2) e,
          known := (RUCache.step s.known (.set file.1 ())).1 }) := by
  have hh : Dict.has s.known.data file.1 = (lookup q file.1).isSome := by
    rw [Dict.has, i.rel.data]
  by_cases hk : file.1 ∈ q.map (·.key)
  · left
    have hp := (lookup_isSome q file.1).2 hk
    refine ⟨hk, ?_⟩
    simp only [publishOne, RUCache.hasKey, RUCache.step, hh, hp, if_true]
  · have hp : (lookup q file.1).isSome = false := by
      simpa using fun hc => hk ((lookup_isSome q file.1).1 hc)
    right
    have hkl : s.known.keys.length = q.length := by
      have := congrArg List.length i.rel.keys; simpa using this
    by_cases hfull : q.length < n
    · left
      refine ⟨hk, hfull, ?_⟩
      have hcond : ¬ ((s.known.keys.length : Int) > s.known.maxSize - 1) := by
        rw [i.rel.size, hkl]; omega
      simp only [publishOne, RUCache.hasKey, RUCache.step, RUCache.set, hh, hp,
        Bool.false_eq_true, if_false, hcond, List.foldl_nil]
    · right
      have hfl : q.length = n := by have := i.rel.len; omega
      obtain ⟨e, pb', h1, hmem, h2, h3, h4, h5, h6, h7⟩ :=
        RUCache.evict_spec i.rel hfl file.1 () hk
      have hcond : (s.known.keys.length : Int) > s.known.maxSize - 1 := by
        rw [i.rel.size, hkl]; omega
      have hek : e.key ∈ q.map (·.key) := List.mem_map.2 ⟨e, hmem, rfl⟩
      refine ⟨hk, hfl, e.key, hek, ?_, ?_, ?_⟩
      · intro hc; exact hk (hc ▸ hek)
      · simp only [RUCache.Spec.step, hp, Bool.false_eq_true, if_false, hfull]
        rw [h1]; rfl
      · simp only [publishOne, RUCache.hasKey, RUCache.step, RUCache.set, hh, hp,
          Bool.false_eq_true, if_false, hcond, if_true, h2, List.foldl_cons, List.foldl_nil,
          cleanLineCache]

theorem publishOne_inv {n : Nat} {s : State} {q : Queue String Unit} {hist}
    (i : Inv n s q hist) (file : String × String) (hist' : List (String × String))
    (hsub : ∀ p ∈ hist, p ∈ hist') (hf : file ∈ hist') :
    ∃ q', Inv n (publishOne s file) q' hist' := by
  rcases publishOne_eq i file with ⟨hk, he⟩ | ⟨hk, hl, he⟩ | ⟨hk, hl, e, hek, hne, ho, he⟩
  · rw [he]
    refine ⟨_, (RUCache.step_rel i.rel (.has file.1 true)).1, i.nodup, ?_, ?_⟩
    · intro f
      rw [← lookup_isSome, RUCache.spec_lookup_step i.rel, lookup_isSome]
      exact i.same f
    · intro p hp; exact hsub p (i.src p hp)
  · rw [he]
    refine ⟨_, (RUCache.step_rel i.rel (.set file.1 ())).1, RUCache.set_dnodup _ _ _ i.nodup,
      ?_, ?_⟩
    · intro f
      have hp : (lookup q file.1).isSome = false := by
        simpa using fun hc => hk ((lookup_isSome q file.1).1 hc)
      have ho : (RUCache.Spec.step n q (.set file.1 ())).2 = .setDone [] := by
        simp only [RUCache.Spec.step, hp, Bool.false_eq_true, if_false, hl, if_true]
      rw [← lookup_isSome, RUCache.spec_lookup_step i.rel, ho, mem_keys_set]
      simp only [List.map_nil, List.contains_nil, Bool.false_eq_true, if_false]
      by_cases hfx : file.1 = f
      · subst hfx; simp
      · have : (file.1 == f) = false := by simpa using hfx
        simp only [this, Bool.false_eq_true, if_false, lookup_isSome]
        rw [← i.same]
        constructor
        · rintro (rfl | h)
          · exact absurd rfl hfx
          · exact h
        · exact .inr
    · intro p hp
      rcases mem_set hp with hp | rfl
      · exact hsub p (i.src p hp)
      · exact hf
  · rw [he]
    refine ⟨_, (RUCache.step_rel i.rel (.set file.1 ())).1, ?_, ?_, ?_⟩
    · simp only
      rw [Dict.erase_keys]
      exact (RUCache.set_dnodup _ _ _ i.nodup).erase _
    · intro f
      simp only
      rw [← lookup_isSome, RUCache.spec_lookup_step i.rel, ho, Dict.erase_keys,
        (RUCache.set_dnodup _ _ _ i.nodup).mem_erase_iff, mem_keys_set, i.same]
      by_cases hfe : f = e
      · subst hfe; simp
      · simp only [List.map_cons, List.map_nil, List.contains_cons, List.contains_nil, Bool.or_false]
        have : (f == e) = false := by simpa using hfe
        simp only [this, Bool.false_eq_true, if_false]
        by_cases hfx : file.1 = f
        · subst hfx; simp [hfe]
        · have h3 : (file.1 == f) = false := by simpa using hfx
          simp only [h3, Bool.false_eq_true, if_false, lookup_isSome]
          constructor
          · rintro ⟨_, rfl | h⟩
            · exact absurd rfl hfx
            · exact h
          · exact fun h => ⟨hfe, .inr h⟩
    · intro p hp
      rcases mem_set (mem_erase hp) with hp | rfl
      · exact hsub p (i.src p hp)
      · exact hf

theorem publish_inv {n : Nat} (files : List (String × String)) (hist' : List (String × String)) :
    ∀ {s : State} {q : Queue String Unit} {hist}, Inv n s q hist →
    (∀ p ∈ hist, p ∈ hist') → (∀ p ∈ files, p ∈ hist') → ∃ q', Inv n (publish s files) q' hist' := by
  induction files with
  | nil =>
    intro s q hist i hs _
    exact ⟨q, i.rel, i.nodup, i.same, fun p hp => hs p (i.src p hp)⟩
  | cons f files ih =>
    intro s q hist i hs hf
    obtain ⟨q', i'⟩ := publishOne_inv i f hist' hs (hf f (by simp))
    exact ih i' (fun p hp => hp) (fun p hp => hf p (List.mem_cons_of_mem _ hp))

theorem run_inv {n : Nat} (convs : List (List (String × String)))
    (hist' : List (String × String)) :
    ∀ {s : State} {q : Queue String Unit} {hist}, Inv n s q hist →
    (∀ p ∈ hist, p ∈ hist') → (∀ c ∈ convs, ∀ p ∈ c, p ∈ hist') →
    ∃ q', Inv n (runPublishes s convs) q' hist' := by
  induction convs with
  | nil =>
    intro s q hist i hs _
    exact ⟨q, i.rel, i.nodup, i.same, fun p hp => hs p (i.src p hp)⟩
  | cons c convs ih =>
    intro s q hist i hs hf
    obtain ⟨q', i'⟩ := publish_inv c hist' i hs (hf c (by simp))
    exact ih i' (fun p hp => hp) (fun d hd => hf d (List.mem_cons_of_mem _ hd))

theorem init_inv (n : Nat) (hn : 1 ≤ n) : Inv n (init n) [] [] where
  rel := RUCache.rel_init n hn
  nodup := by simp [init, Dict.keys]
  same := by simp [init, Dict.keys]
  src := by simp [init]

theorem length_of_inv {n : Nat} {s : State} {q} {hist} (i : Inv n s q hist) :
    s.lines.length ≤ n := by
  have h1 : (Dict.keys s.lines).length ≤ (q.map (·.key)).length :=
    i.nodup.length_le_of_subset (fun x hx => (i.same x).1 hx)
  have := i.rel.len
  simp [Dict.keys] at h1
  omega

/-! ## C04 -/

/-- **C04.** After any sequence of converters publishing their sources (capacity `n >= 1`): at most
`n` entries are in linecache, each name at most once; a name is in linecache exactly when the
cache of known names has it; and each text is the text some converter published for that name. -/
theorem C04_linecache_consistent (n : Nat) (hn : 1 ≤ n)
    (convs : List (List (String × String))) :
    let s := runPublishes (init n) convs
    s.lines.length ≤ n ∧ (Dict.keys s.lines).Nodup ∧
    (∀ f, Dict.has s.lines f = Dict.has s.known.data f) ∧
    (∀ f text, Dict.get? s.lines f = some text → ∃ c ∈ convs, (f, text) ∈ c) := by
  intro s
  obtain ⟨q, i⟩ := run_inv convs convs.flatten (init_inv n hn) (by simp)
    (fun c hc p hp => List.mem_flatten.2 ⟨c, hc, hp⟩)
  refine ⟨length_of_inv i, i.nodup, ?_, ?_⟩
  · intro f
    have h2 : Dict.has s.known.data f = (lookup q f).isSome := by rw [Dict.has, i.rel.data]
    rw [h2, Bool.eq_iff_iff, lookup_isSome, ← i.same, Dict.has, Dict.get?_isSome_iff]
    simp only [beq_iff_eq, exists_eq_right]
    exact Iff.rfl
  · intro f text h
    have hmem : ∀ d : List (String × String), Dict.get? d f = some text → (f, text) ∈ d := by
      intro d
      induction d with
      | nil => simp [Dict.get?]
      | cons a d ih =>
        obtain ⟨x, y⟩ := a
        by_cases hx : x = f
        · subst hx; simp only [Dict.get?, beq_self_eq_true, if_true, Option.some.injEq]
          rintro rfl; simp
        · have : (x == f) = false := by simpa using hx
          simp only [Dict.get?, this, Bool.false_eq_true, if_false]
          exact fun h => List.mem_cons_of_mem _ (ih h)
    have := i.src _ (hmem _ h)
    obtain ⟨c, hc, hp⟩ := List.mem_flatten.1 this
    exact ⟨c, hc, hp⟩

/-- Three one-file converters, capacity two: the first file is gone from both. -/
example : (runPublishes (init 2) [[("a", "1")], [("b", "2")], [("c", "3")]]).lines
    = [("b", "2"), ("c", "3")] := by decide

/-! ## C05 -/

/-- **C05 is violated by the code**: file names may collide between converters (they contain only
a short random suffix), and `populate_line_cache` skips names it already knows.  The second
converter's stack traces then show the first converter's code. -/
theorem C05_refuted_collision :
    ∃ convs : List (List (String × String)), ∃ last : List (String × String), ∃ p ∈ last,
      Dict.get? (publish (runPublishes (init 1000) convs) last).lines p.1 ≠ some p.2 := by
  refine ⟨[[("<generated by convtools>ab1", "def converter_1")]],
    [("<generated by convtools>ab1", "def converter_2")], _, List.mem_cons_self, ?_⟩
  decide

/-- **C05 is violated** even without collisions: when all other entries were recently used, a file
of the converter evicts an earlier file of the same converter (shown for capacity 2). -/
theorem C05_refuted_self_eviction :
    ∃ convs : List (List (String × String)), ∃ last : List (String × String), ∃ p ∈ last,
      last.length ≤ 2 ∧ (convs.flatten ++ last).Nodup ∧
      Dict.get? (publish (publish (runPublishes (init 2) convs) [("g", "0")]) last).lines p.1
        ≠ some p.2 := by
  refine ⟨[[("g", "0")]], [("f1", "1"), ("f2", "2")], _, List.mem_cons_self, ?_⟩
  decide

/-- **C05 is violated** after foreign code cleared `linecache`: the names stay known and the
sources are not published again. -/
theorem C05_refuted_cleared :
    ∃ file : String × String,
      Dict.get? (publish (step (publish (init 1000) [file]) (.extDelete file.1)) [file]).lines
        file.1 = none := ⟨("f", "code"), by decide⟩

theorem get?_of_inv {n : Nat} {s : State} {q} {hist : List (String × String)}
    (i : Inv n s q hist) (hcons : ∀ p ∈ hist, ∀ p' ∈ hist, p.1 = p'.1 → p = p')
    (p : String × String) (hp : p ∈ hist) (hk : p.1 ∈ q.map (·.key)) :
    Dict.get? s.lines p.1 = some p.2 := by
  have hk' := (i.same p.1).2 hk
  have key : ∀ d : List (String × String), (∀ x ∈ d, x ∈ hist) → p.1 ∈ Dict.keys d →
      Dict.get? d p.1 = some p.2 := by
    intro d
    induction d with
    | nil => simp [Dict.keys]
    | cons a d ih =>
      intro hd hm
      obtain ⟨x, y⟩ := a
      by_cases hx : x = p.1
      · have := hcons _ (hd (x, y) (by simp)) p hp hx
        rw [← this]; simp [Dict.get?]
      · have h' : (x == p.1) = false := by simpa using hx
        simp only [Dict.get?, h', Bool.false_eq_true, if_false]
        apply ih (fun z hz => hd z (List.mem_cons_of_mem _ hz))
        simp only [Dict.keys, List.map_cons, List.mem_cons] at hm
        rcases hm with h | h
        · exact absurd h.symm hx
        · exact h
  exact key s.lines i.src hk'

/-- After publishing one file its name is known. -/
theorem publishOne_known {n : Nat} {s : State} {q : Queue String Unit} {hist}
    (i : Inv n s q hist) (file : String × String) (q') (hist')
    (i' : Inv n (publishOne s file) q' hist') : file.1 ∈ q'.map (·.key) := by
  rw [← i'.same]
  rcases publishOne_eq i file with ⟨hk, he⟩ | ⟨hk, hl, he⟩ | ⟨hk, hl, e, hek, hne, ho, he⟩
  · rw [he]; exact (i.same _).2 hk
  · rw [he]; exact mem_keys_set.2 (.inl rfl)
  · rw [he]
    simp only
    rw [Dict.erase_keys, (RUCache.set_dnodup _ _ _ i.nodup).mem_erase_iff]
    exact ⟨hne.symm, mem_keys_set.2 (.inl rfl)⟩

/-- **C05, partial** (full statement: every published name of every converter shows its code; see
the three refutations).  If no two published files with the same name have different texts, then
the file a converter publishes last shows its own code. -/
theorem C05_last_file_partial (n : Nat) (hn : 1 ≤ n) (convs : List (List (String × String)))
    (last : List (String × String)) (p : String × String)
    (hcons : ∀ a ∈ convs.flatten ++ last ++ [p], ∀ b ∈ convs.flatten ++ last ++ [p],
      a.1 = b.1 → a = b) :
    Dict.get? (publish (runPublishes (init n) convs) (last ++ [p])).lines p.1 = some p.2 := by
  let hist' := convs.flatten ++ last ++ [p]
  obtain ⟨q, i⟩ := run_inv convs hist' (init_inv n hn) (by simp)
    (fun c hc x hx => by
      simp only [hist', List.mem_append]
      exact .inl (.inl (List.mem_flatten.2 ⟨c, hc, hx⟩)))
  obtain ⟨q1, i1⟩ := publish_inv last hist' i (fun _ h => h) (fun x hx => by simp [hist', hx])
  obtain ⟨q2, i2⟩ := publishOne_inv i1 p hist' (fun _ h => h) (by simp [hist'])
  have hk := publishOne_known i1 p q2 hist' i2
  have := get?_of_inv i2 hcons p (by simp [hist']) hk
  simpa [publish] using this

/-- Everything ever published stays known while the number of distinct names fits the cache. -/
theorem publishOne_keeps {n : Nat} {s : State} {q : Queue String Unit} {hist : List (String × String)}
    (i : Inv n s q hist) (file : String × String) (names : List String)
    (hn : names.length ≤ n) (hq : ∀ k ∈ q.map (·.key), k ∈ names) (hf : file.1 ∈ names)
    (q') (hist') (i' : Inv n (publishOne s file) q' hist') :
    (∀ k ∈ q'.map (·.key), k ∈ names) ∧ (∀ k ∈ q.map (·.key), k ∈ q'.map (·.key)) := by
  rcases publishOne_eq i file with ⟨hk, he⟩ | ⟨hk, hl, he⟩ | ⟨hk, hl, e, hek, hne, ho, he⟩
  · rw [he] at i'
    have hs : ∀ k, k ∈ q'.map (·.key) ↔ k ∈ q.map (·.key) := fun k => by
      rw [← i'.same, ← i.same]
    exact ⟨fun k h => hq k ((hs k).1 h), fun k h => (hs k).2 h⟩
  · rw [he] at i'
    have hs : ∀ k, k ∈ q'.map (·.key) ↔ k = file.1 ∨ k ∈ q.map (·.key) := fun k => by
      rw [← i'.same, ← i.same]; exact mem_keys_set
    refine ⟨fun k h => ?_, fun k h => (hs k).2 (.inr h)⟩
    rcases (hs k).1 h with rfl | h
    · exact hf
    · exact hq k h
  · exfalso
    have hnd : (file.1 :: q.map (·.key)).Nodup := List.nodup_cons.2 ⟨hk, i.rel.nodup⟩
    have := hnd.length_le_of_subset (l₂ := names) (fun x hx => by
      rcases List.mem_cons.1 hx with rfl | hx
      · exact hf
      · exact hq x hx)
    simp at this
    omega

/-- **C05, partial**: if no name ever stands for two texts and all names ever published fit the
cache (capacity 1000 in the code), then every converter that has published keeps showing exactly
its own code for each of its files. -/
theorem C05_own_code_partial (n : Nat) (hn : 1 ≤ n) (convs : List (List (String × String)))
    (names : List String) (hnames : names.length ≤ n)
    (hin : ∀ c ∈ convs, ∀ p ∈ c, p.1 ∈ names)
    (hcons : ∀ a ∈ convs.flatten, ∀ b ∈ convs.flatten, a.1 = b.1 → a = b) :
    ∀ c ∈ convs, ∀ p ∈ c, Dict.get? (runPublishes (init n) convs).lines p.1 = some p.2 := by
  have one : ∀ (files : List (String × String)) {s : State} {q : Queue String Unit},
      Inv n s q convs.flatten → (∀ p ∈ files, p ∈ convs.flatten) →
      (∀ k ∈ q.map (·.key), k ∈ names) →
      ∃ q', Inv n (publish s files) q' convs.flatten ∧ (∀ k ∈ q'.map (·.key), k ∈ names) ∧
        (∀ k ∈ q.map (·.key), k ∈ q'.map (·.key)) ∧ ∀ p ∈ files, p.1 ∈ q'.map (·.key) := by
    intro files
    induction files with
    | nil => intro s q i _ hq; exact ⟨q, i, hq, fun _ h => h, by simp⟩
    | cons f files ih =>
      intro s q i hf hq
      have hff := hf f (by simp)
      have hfn : f.1 ∈ names := by
        obtain ⟨c, hc, hp⟩ := List.mem_flatten.1 hff
        exact hin c hc f hp
      obtain ⟨q1, i1⟩ := publishOne_inv i f convs.flatten (fun _ h => h) hff
      have ⟨k1, k2⟩ := publishOne_keeps i f names hnames hq hfn q1 _ i1
      have hk := publishOne_known i f q1 _ i1
      obtain ⟨q2, i2, j1, j2, j3⟩ := ih i1 (fun p hp => hf p (List.mem_cons_of_mem _ hp)) k1
      refine ⟨q2, i2, j1, fun k h => j2 k (k2 k h), ?_⟩
      intro p hp
      rcases List.mem_cons.1 hp with rfl | hp
      · exact j2 _ hk
      · exact j3 p hp
  have all : ∀ (cs : List (List (String × String))) {s : State} {q : Queue String Unit},
      Inv n s q convs.flatten → (∀ c ∈ cs, c ∈ convs) → (∀ k ∈ q.map (·.key), k ∈ names) →
      ∃ q', Inv n (runPublishes s cs) q' convs.flatten ∧
        (∀ k ∈ q.map (·.key), k ∈ q'.map (·.key)) ∧
        ∀ c ∈ cs, ∀ p ∈ c, p.1 ∈ q'.map (·.key) := by
    intro cs
    induction cs with
    | nil => intro s q i _ _; exact ⟨q, i, fun _ h => h, by simp⟩
    | cons c cs ih =>
      intro s q i hc hq
      obtain ⟨q1, i1, k1, k2, k3⟩ := one c i
        (fun p hp => List.mem_flatten.2 ⟨c, hc c (by simp), hp⟩) hq
      obtain ⟨q2, i2, j1, j2⟩ := ih i1 (fun d hd => hc d (List.mem_cons_of_mem _ hd)) k1
      refine ⟨q2, i2, fun k h => j1 k (k2 k h), ?_⟩
      intro d hd p hp
      rcases List.mem_cons.1 hd with rfl | hd
      · exact j1 _ (k3 p hp)
      · exact j2 d hd p hp
  have i0 : Inv n (init n) [] convs.flatten :=
    ⟨RUCache.rel_init n hn, by simp [init, Dict.keys], by simp [init, Dict.keys], by simp [init]⟩
  obtain ⟨q, i, _, h⟩ := all convs i0 (fun _ h => h) (by simp)
  intro c hc p hp
  exact get?_of_inv i hcons p (List.mem_flatten.2 ⟨c, hc, hp⟩) (h c hc p hp)

/-- The hypotheses are met by two converters sharing one file, capacity 3. -/
example : ∀ c ∈ [[("a", "1"), ("b", "2")], [("b", "2"), ("c", "3")]], ∀ p ∈ c,
    Dict.get? (runPublishes (init 3) [[("a", "1"), ("b", "2")], [("b", "2"), ("c", "3")]]).lines p.1
      = some p.2 :=
  C05_own_code_partial 3 (by decide) _ ["a", "b", "c"] (by decide) (by decide) (by decide)

end Verif.LineCache
