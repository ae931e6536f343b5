import Verif.Stmt.AggBlocks

/-!
# Stmt: texts of the reduce blocks, sharing and merging

Source: `/repo/src/convtools/aggregations.py` lines 578-592, 695-752, 1178-1204.
-/

set_option autoImplicit false

namespace Verif.Stmt

open Verif.Text Verif.Agg

variable {V E : Type}

/-- `update_var_agg_data_value` (586-593). -/
def rename (new : List Char) (b : BlockText) : BlockText :=
  { b with
    init := replaceAll b.var new b.init
    two := replaceAll b.var new b.two
    var := new }

/-- A `Reduce` as far as code generation uses it: `gen_reduce_code_block` (876-914), given the variable and the
checksum flag, and `unconditional_init`. -/
structure TRed where
  gen : String → Nat → BlockText
  uncond : Bool

/-- A block given to `ReduceBlocks.add_block` (706-720). -/
structure TItem where
  text : BlockText
  uncond : Bool

/-- The condition's code, which is the key of `condition_to_blocks` (708-714). -/
def TItem.cond (it : TItem) : Option String := it.text.cond.map String.ofList

/-- `ReduceBlocks._reduce_blocks` (722-728). -/
def textMerge : List BlockText → Option BlockText
  | [] => none
  | b :: bs => some (bs.foldl BlockText.union b)

/-- `ReduceBlocks.add_block` (706-720) followed by `reduce_blocks` (730-744). -/
def textBlocks (items : List TItem) : List BlockText :=
  let condNot := items.filter (fun it => it.cond.isSome && !it.uncond)
  let condUnc := items.filter (fun it => it.cond.isSome && it.uncond)
  let unc := items.filter (fun it => !it.cond.isSome && it.uncond)
  let other := items.filter (fun it => !it.cond.isSome && !it.uncond)
  ((bucket TItem.cond condNot).flatMap (fun p => p.2.map TItem.text))
    ++ ((bucket TItem.cond condUnc).filterMap (fun p => textMerge (p.2.map TItem.text)))
    ++ (textMerge (unc.map TItem.text)).toList
    ++ other.map TItem.text

/-- State of the loop over `self.agg_items` (1178-1204): `code_signature_to_agg_index`, the blocks,
`reduce_id_to_var` and `expected_checksum`. -/
structure TDedup where
  seen : List (String × Nat) := []
  items : List TItem := []
  slotOf : List Nat := []
  expected : Nat := 0

/-- The block of agg item number `i`. -/
def textOf (agg : Bool) (i : Nat) (t : TRed) : BlockText := t.gen (placeText agg i) (if agg then 1 <<< i else 0)

/-- Lines 1199-1200. -/
def renamed (agg : Bool) (i j : Nat) (b : BlockText) : BlockText :=
  if placeText agg i ≠ placeText agg j then rename (placeText agg j).toList b else b

/-- One turn of the loop (1178-1204). -/
def textStep (agg : Bool) (st : TDedup) (i : Nat) (t : TRed) : TDedup :=
  let b := textOf agg i t
  let hash := String.ofList (codeHash b)
  match Dict.get? st.seen hash with
  | some j => { st with slotOf := st.slotOf ++ [j] }
  | none =>
    let j := st.items.length
    { seen := Dict.set st.seen hash j
      items := st.items ++ [{ text := renamed agg i j b, uncond := t.uncond }]
      slotOf := st.slotOf ++ [j]
      expected := st.expected ||| (if agg then 1 <<< i else 0) }

/-- The loop (1178-1204). -/
def textLoop (agg : Bool) : TDedup → Nat → List TRed → TDedup
  | st, _, [] => st
  | st, i, t :: ts => textLoop agg (textStep agg st i t) (i + 1) ts

/-- All blocks of one aggregation. -/
def textCompile (agg : Bool) (ts : List TRed) : TDedup := textLoop agg {} 0 ts

/-! ## Two lists, element by element -/

/-- Lists whose elements are related. -/
inductive All2 {A B : Type} (R : A → B → Prop) : List A → List B → Prop
  | nil : All2 R [] []
  | cons {a : A} {b : B} {as : List A} {bs : List B} : R a b → All2 R as bs → All2 R (a :: as) (b :: bs)

section
variable {A B A' B' : Type} {R : A → B → Prop} {S : A' → B' → Prop}

theorem All2.append {as as' : List A} {bs bs' : List B} (h : All2 R as bs) (h' : All2 R as' bs') :
    All2 R (as ++ as') (bs ++ bs') := by
  induction h with
  | nil => exact h'
  | cons h1 _ ih => exact .cons h1 ih

theorem All2.length {as : List A} {bs : List B} (h : All2 R as bs) : as.length = bs.length := by
  induction h with
  | nil => rfl
  | cons _ _ ih => simp [ih]

theorem All2.map {as : List A} {bs : List B} {f : A → A'} {g : B → B'} (h : All2 R as bs)
    (hfg : ∀ a b, R a b → S (f a) (g b)) : All2 S (as.map f) (bs.map g) := by
  induction h with
  | nil => exact .nil
  | cons h1 _ ih => exact .cons (hfg _ _ h1) ih

theorem All2.filter {as : List A} {bs : List B} {f : A → Bool} {g : B → Bool} (h : All2 R as bs)
    (hfg : ∀ a b, R a b → f a = g b) : All2 R (as.filter f) (bs.filter g) := by
  induction h with
  | nil => exact .nil
  | cons h1 _ ih =>
    rename_i a b _ _ _
    rw [List.filter_cons, List.filter_cons, hfg _ _ h1]
    cases g b with
    | true => exact .cons h1 ih
    | false => exact ih

theorem All2.flatMap {as : List A} {bs : List B} {f : A → List A'} {g : B → List B'} (h : All2 R as bs)
    (hfg : ∀ a b, R a b → All2 S (f a) (g b)) : All2 S (as.flatMap f) (bs.flatMap g) := by
  induction h with
  | nil => exact .nil
  | cons h1 _ ih =>
    rw [List.flatMap_cons, List.flatMap_cons]
    exact (hfg _ _ h1).append ih

theorem All2.imp {T : A → B → Prop} {as : List A} {bs : List B} (h : All2 R as bs) (hi : ∀ a b, R a b → T a b) :
    All2 T as bs := by
  induction h with
  | nil => exact .nil
  | cons h1 _ ih => exact .cons (hi _ _ h1) ih

/-- Entries of two dicts with the same keys. -/
def Entry (R : A → B → Prop) (p : Option String × List A) (q : Option String × List B) : Prop :=
  p.1 = q.1 ∧ All2 R p.2 q.2

theorem entry_set {d : List (Option String × List A)} {d' : List (Option String × List B)} (h : All2 (Entry R) d d')
    {a : A} {b : B} (hab : R a b) (k : Option String) :
    All2 (Entry R) (Dict.set d k ((Dict.get? d k).getD [] ++ [a])) (Dict.set d' k ((Dict.get? d' k).getD [] ++ [b])) := by
  have hg : All2 R ((Dict.get? d k).getD []) ((Dict.get? d' k).getD []) := by
    induction h with
    | nil => exact .nil
    | cons h1 _ ih =>
      rename_i p q _ _ _
      obtain ⟨p1, p2⟩ := p
      obtain ⟨q1, q2⟩ := q
      obtain ⟨rfl, h2⟩ := h1
      simp only [Dict.get?]
      split
      · exact h2
      · exact ih
  have hv := hg.append (.cons hab .nil)
  generalize (Dict.get? d k).getD [] ++ [a] = x at hv ⊢
  generalize (Dict.get? d' k).getD [] ++ [b] = y at hv ⊢
  clear hg
  induction h with
  | nil => exact .cons ⟨rfl, hv⟩ .nil
  | cons h1 h3 ih =>
    rename_i p q _ _
    obtain ⟨p1, p2⟩ := p
    obtain ⟨q1, q2⟩ := q
    obtain ⟨rfl, h2⟩ := h1
    simp only [Dict.set]
    split
    · exact .cons ⟨rfl, hv⟩ h3
    · exact .cons ⟨rfl, h2⟩ ih

theorem All2.bucket {as : List A} {bs : List B} {f : A → Option String} {g : B → Option String} (h : All2 R as bs)
    (hfg : ∀ a b, R a b → f a = g b) : All2 (Entry R) (Agg.bucket f as) (Agg.bucket g bs) := by
  have : ∀ (d : List (Option String × List A)) (d' : List (Option String × List B)), All2 (Entry R) d d' →
      All2 (Entry R)
        (as.foldl (fun d x => Dict.set d (f x) (((Dict.get? d (f x)).getD []) ++ [x])) d)
        (bs.foldl (fun d x => Dict.set d (g x) (((Dict.get? d (g x)).getD []) ++ [x])) d') := by
    induction h with
    | nil => exact fun _ _ h => h
    | cons h1 _ ih =>
      intro d d' hd
      simp only [List.foldl_cons]
      refine ih _ _ ?_
      rw [hfg _ _ h1]
      exact entry_set hd h1 _
  exact this [] [] .nil

end

end Verif.Stmt
