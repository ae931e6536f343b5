import Verif.Stmt.AggCompile
import Verif.Agg.Dedup

/-!
# Stmt: the texts of the blocks do what the blocks of the model of aggregations do
-/

set_option autoImplicit false

namespace Verif.Stmt

open Verif.Text Verif.Agg

variable {V E : Type}

/-- How a merged block is read. -/
def BlockSrc.union (a b : BlockSrc) : BlockSrc :=
  { a with
    init := a.init ++ b.init
    initS := a.initS ++ b.initS
    two := a.two ++ b.two
    twoS := a.twoS ++ b.twoS
    flag := a.flag ||| b.flag }

theorem BlockReads.union {b c : BlockText} {r q : BlockSrc} (h : BlockReads b r) (h' : BlockReads c q) :
    BlockReads (b.union c) (r.union q) where
  var := h.var
  init := h.init.append h'.init
  two := h.two.append h'.two
  flag := by simp [BlockText.union, BlockSrc.union, h.flag, h'.flag]
  cond := h.cond

section
variable (P : Py V E) (condSem : String → V → Except E Bool) (args : List String) (env : String → Option (PVal V))
  (m : Bool)

/-- The text of the block of a reduce does what the reduce of the model does. -/
structure RedOk (k : Option (DVal V) → Prop) (j flag : Nat) (r : Red V (DVal V) E) (b : BlockText) (q : BlockSrc) : Prop where
  reads : BlockReads b q
  va : q.va = place m j
  flag : q.flag = flag
  init : Acts P (Ctx args env) k m j q.initS r.init
  two : Acts P (Ctx args env) k m j q.twoS r.two
  text : r.cond = b.cond.map String.ofList
  cond : ∀ c d, b.cond = some c → q.cond = some d → Tests P (Ctx args env) d.tree (condSem (String.ofList c))

/-- A block of the model and a text. -/
structure Pair (K : Nat → Option (DVal V) → Prop) (N : Nat) (b : Block V (DVal V) E) (t : BlockText) : Prop where
  src : ∃ q, BlockReads t q ∧ BlockRel K P condSem args env m N b q
  flagT : m = true → b.flag ≠ 0
  flagF : m = false → b.flag = 0

/-- An item of the model and a text. -/
structure ItemRel (kd : String → Option (DVal V) → Prop) (N : Nat) (it : Item V (DVal V) E) (t : TItem) : Prop where
  uncond : it.red.uncond = t.uncond
  cond : it.red.cond = t.cond
  src : ∃ q, RedOk P condSem args env m (kd it.red.hash) it.slot it.flag it.red t.text q
  slot : it.slot < N
  flagT : m = true → it.flag ≠ 0
  flagF : m = false → it.flag = 0

/-- The reduces of the model and their codes: number `i` and the following ones.  The code must act as the reduce says
under each variable which it may be given, where `kd` says what a variable holds whose reduce has this hash. -/
inductive Linked (kd : String → Option (DVal V) → Prop) : Nat → List TRed → List (Red V (DVal V) E) → Prop
  | nil {i : Nat} : Linked kd i [] []
  | cons {i : Nat} {t : TRed} {r : Red V (DVal V) E} {ts : List TRed} {rs : List (Red V (DVal V) E)} :
      r.hash = String.ofList (codeHash (textOf m i t)) → r.uncond = t.uncond →
      (∀ j, j ≤ i → ∃ q, RedOk P condSem args env m (kd r.hash) j (if m then 1 <<< i else 0) r (renamed m i j (textOf m i t)) q) →
      Linked kd (i + 1) ts rs → Linked kd i (t :: ts) (r :: rs)

variable {P condSem args env m} {K : Nat → Option (DVal V) → Prop} {kd : String → Option (DVal V) → Prop}

theorem Pair.union {N : Nat} {b c : Block V (DVal V) E} {t u : BlockText} (h : Pair P condSem args env m K N b t)
    (h' : Pair P condSem args env m K N c u) : Pair P condSem args env m K N (b.union c) (t.union u) where
  src := by
    obtain ⟨q, h1, h2⟩ := h.src
    obtain ⟨q', h3, h4⟩ := h'.src
    refine ⟨q.union q', h1.union h3, ⟨h2.head, h2.va, ?_, ?_, ?_, h2.cond⟩⟩
    · simp [BlockSrc.union, Block.union, h2.flag, h4.flag]
    · exact h2.init.append h4.init
    · exact h2.two.append h4.two
  flagT := by
    intro hm h0
    exact h.flagT hm (Nat.or_eq_zero_iff.1 h0).1
  flagF := by
    intro hm
    simp [Block.union, h.flagF hm, h'.flagF hm]

theorem ItemRel.pair {N : Nat} {it : Item V (DVal V) E} {t : TItem} (h : ItemRel P condSem args env m kd N it t)
    (hK : K it.slot = kd it.red.hash) : Pair P condSem args env m K N it.block t.text where
  src := by
    obtain ⟨q, h1⟩ := h.src
    refine ⟨q, h1.reads, ⟨h.slot, h1.va, h1.flag, ?_, ?_, ?_⟩⟩
    · have := PartsOk.cons (K := K) (P := P) (C := Ctx args env) (m := m) (N := N) (ph := .init) (r := it.red) h.slot (hK ▸ h1.init) .nil
      rwa [List.append_nil] at this
    · have := PartsOk.cons (K := K) (P := P) (C := Ctx args env) (m := m) (N := N) (ph := .two) (r := it.red) h.slot (hK ▸ h1.two) .nil
      rwa [List.append_nil] at this
    · have hc := h1.reads.cond
      have ht := h1.text
      have hs := h1.cond
      simp only [Item.block, ht]
      cases h2 : t.text.cond with
      | none =>
        rw [h2] at hc
        cases h3 : q.cond with
        | none => trivial
        | some d => rw [h3] at hc; exact hc.elim
      | some c =>
        rw [h2] at hc
        cases h3 : q.cond with
        | none => rw [h3] at hc; exact hc.elim
        | some d => exact hs c d h2 h3
  flagT := h.flagT
  flagF := h.flagF

theorem merge_pair {N : Nat} {bs : List (Block V (DVal V) E)} {ts : List BlockText}
    (h : All2 (Pair P condSem args env m K N) bs ts) :
    All2 (Pair P condSem args env m K N) (mergeAll bs).toList (textMerge ts).toList := by
  cases h with
  | nil => exact .nil
  | cons h1 h2 =>
    refine .cons ?_ .nil
    rename_i b t bs ts
    induction h2 generalizing b t with
    | nil => exact h1
    | cons h3 _ ih => exact ih (h1.union h3)

theorem filterMap_toList {A B : Type} (f : A → Option B) (l : List A) :
    l.filterMap f = l.flatMap (fun a => (f a).toList) := by
  induction l with
  | nil => rfl
  | cons a l ih =>
    rw [List.filterMap_cons, List.flatMap_cons, ← ih]
    cases f a <;> rfl

/-- Merging of blocks and of their texts. -/
theorem blocks_pair {N : Nat} {its : List (Item V (DVal V) E)} {ts : List TItem}
    (h : All2 (fun it t => ItemRel P condSem args env m kd N it t ∧ K it.slot = kd it.red.hash) its ts) :
    All2 (Pair P condSem args env m K N) (reduceBlocks its) (textBlocks ts) := by
  have hm : ∀ {as : List (Item V (DVal V) E)} {bs : List TItem},
      All2 (fun it t => ItemRel P condSem args env m kd N it t ∧ K it.slot = kd it.red.hash) as bs →
      All2 (Pair P condSem args env m K N) (as.map Item.block) (bs.map TItem.text) :=
    fun h => h.map (fun _ _ h => h.1.pair h.2)
  unfold reduceBlocks textBlocks
  refine .append (.append (.append ?_ ?_) ?_) ?_
  · refine All2.flatMap ((h.filter ?_).bucket (fun _ _ h => h.1.cond)) (fun p q h => hm h.2)
    intro a b hab
    rw [hab.1.cond, hab.1.uncond]
  · rw [filterMap_toList, filterMap_toList]
    refine All2.flatMap ((h.filter ?_).bucket (fun _ _ h => h.1.cond)) (fun p q h => merge_pair (hm h.2))
    intro a b hab
    rw [hab.1.cond, hab.1.uncond]
  · refine merge_pair (hm (h.filter ?_))
    intro a b hab
    rw [hab.1.cond, hab.1.uncond]
  · refine hm (h.filter ?_)
    intro a b hab
    rw [hab.1.cond, hab.1.uncond]

/-- The state of the loop of the model, and of the loop which makes texts. -/
structure CompRel (i : Nat) (c : Dedup V (DVal V) E) (t : TDedup) : Prop where
  seen : t.seen = c.seen
  slotOf : t.slotOf = c.slotOf
  expected : t.expected = c.expected
  items : All2 (ItemRel P condSem args env m kd c.items.length) c.items t.items
  le : c.items.length ≤ i

theorem ItemRel.mono {N N' : Nat} (hn : N ≤ N') (it : Item V (DVal V) E) (t : TItem)
    (h : ItemRel P condSem args env m kd N it t) : ItemRel P condSem args env m kd N' it t :=
  ⟨h.uncond, h.cond, h.src, Nat.lt_of_lt_of_le h.slot hn, h.flagT, h.flagF⟩

theorem renamed_cond (i j : Nat) (b : BlockText) : (renamed m i j b).cond = b.cond := by
  unfold renamed
  split <;> rfl

theorem comp_rel {ts : List TRed} {rs : List (Red V (DVal V) E)} {i : Nat} (h : Linked P condSem args env m kd i ts rs) :
    ∀ {c : Dedup V (DVal V) E} {t : TDedup}, CompRel (P := P) (condSem := condSem) (args := args) (env := env) (m := m) (kd := kd) i c t →
      ∃ k, CompRel (P := P) (condSem := condSem) (args := args) (env := env) (m := m) (kd := kd) k (dedupLoop m c i rs)
        (textLoop m t i ts) := by
  induction h with
  | nil => exact fun h => ⟨_, h⟩
  | cons hh hu hr _ ih =>
    rename_i i t r ts rs _
    intro c u hc
    simp only [dedupLoop, textLoop]
    refine ih ?_
    simp only [dedupStep, textStep, hc.seen, hh]
    cases hg : Dict.get? c.seen (String.ofList (codeHash (textOf m i t))) with
    | some j =>
      exact ⟨rfl, by simp [hc.slotOf], hc.expected, hc.items, by have := hc.le; simp only; omega⟩
    | none =>
      have hl := hc.items.length
      have hle := hc.le
      obtain ⟨q, hq⟩ := hr c.items.length hle
      refine ⟨?_, ?_, ?_, ?_, ?_⟩
      · simp [hl]
      · simp [hl, hc.slotOf]
      · simp [hc.expected]
      · rw [← hl]
        refine (hc.items.imp (ItemRel.mono (by simp))).append (.cons ⟨hu, ?_, ⟨q, ?_⟩, by simp, ?_, ?_⟩ .nil)
        · exact hq.text
        · exact hq
        · intro hm
          simp only [hm, if_true]
          rw [Nat.one_shiftLeft]
          exact Nat.ne_of_gt (Nat.pow_pos (by decide))
        · intro hm
          simp [hm]
      · simp only [List.length_append, List.length_cons, List.length_nil]
        omega

/-- What variable number `j` holds, where `kd` says it from the hash of its reduce. -/
def slotKind (kd : String → Option (DVal V) → Prop) (its : List (Item V (DVal V) E)) (j : Nat) :
    Option (DVal V) → Prop :=
  match its[j]? with
  | some it => kd it.red.hash
  | none => fun _ => True

theorem All2.mem_left {A B : Type} {R : A → B → Prop} {as : List A} {bs : List B} (h : All2 R as bs) :
    All2 (fun a b => R a b ∧ a ∈ as) as bs := by
  induction h with
  | nil => exact .nil
  | cons h1 _ ih => exact .cons ⟨h1, by simp⟩ (ih.imp (fun a b h => ⟨h.1, by simp [h.2]⟩))

theorem slotKind_mem {rs : List (Red V (DVal V) E)} {it : Item V (DVal V) E} (h : it ∈ (compile m rs).items) :
    slotKind kd (compile m rs).items it.slot = kd it.red.hash := by
  obtain ⟨j, hj, rfl⟩ := List.mem_iff_getElem.1 h
  have := List.getElem?_eq_getElem hj
  rw [(compile_inv m rs).slots j _ this]
  simp only [slotKind, this]

/-- The blocks of an aggregation, as texts and in the model. -/
theorem compile_rel {ts : List TRed} {rs : List (Red V (DVal V) E)} (h : Linked P condSem args env m kd 0 ts rs) :
    (textCompile m ts).slotOf = (compile m rs).slotOf ∧ (textCompile m ts).expected = (compile m rs).expected ∧
    (textCompile m ts).items.length = (compile m rs).items.length ∧
    All2 (Pair P condSem args env m (slotKind kd (compile m rs).items) (compile m rs).items.length) (reduceBlocks (compile m rs).items)
      (textBlocks (textCompile m ts).items) := by
  have h0 : CompRel (P := P) (condSem := condSem) (args := args) (env := env) (m := m) (kd := kd) 0 {} {} :=
    ⟨rfl, rfl, rfl, .nil, Nat.le_refl _⟩
  obtain ⟨k, hk⟩ := comp_rel h h0
  exact ⟨hk.slotOf, hk.expected, hk.items.length.symm, blocks_pair
    (hk.items.mem_left.imp (fun _ _ h => ⟨h.1, slotKind_mem h.2⟩))⟩

theorem pairs_src {N : Nat} {bs : List (Block V (DVal V) E)} {ts : List BlockText}
    (h : All2 (Pair P condSem args env m K N) bs ts) :
    ∃ qs, AllReads ts qs ∧ BlocksRel K P condSem args env m N bs qs ∧ (m = true → ∀ b ∈ bs, b.flag ≠ 0) ∧
      (m = false → ∀ b ∈ bs, b.flag = 0) := by
  induction h with
  | nil => exact ⟨[], .nil, .nil, by simp, by simp⟩
  | cons h1 _ ih =>
    obtain ⟨qs, i1, i2, i3, i4⟩ := ih
    obtain ⟨q, h2, h3⟩ := h1.src
    refine ⟨q :: qs, .cons h2 i1, .cons h3 i2, ?_, ?_⟩
    · intro hm b hb
      rcases List.mem_cons.1 hb with rfl | hb
      · exact h1.flagT hm
      · exact i3 hm b hb
    · intro hm b hb
      rcases List.mem_cons.1 hb with rfl | hb
      · exact h1.flagF hm
      · exact i4 hm b hb

end

end Verif.Stmt
