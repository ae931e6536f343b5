import Verif.GroupKeys.Lemmas
import Verif.Text.Props
import Verif.Expr.Toy

/-!
# Group keys in the result of `group_by`: properties (C42)

The code of a result item is made for the row (`row_`) and then changed as a text.  The theorems say what comes out,
read by the grammar of Python: the item with the group's key in place of the keys, or an exception.  Keys are lookups
by constants (`c.item("a", 0)`, `c.this()`), items are any code whose names and constants do not have `row_`
as a part of their text.
-/

set_option autoImplicit false

namespace Verif.GroupKeys

open Verif.Expr Verif.Text

section
variable {Val U Err : Type} {printable : Char → Bool} {N : Names Val} {R : Runtime Val U Err} {fuel : Nat}

/-- `sg` is the group's key of the row `r`: the value of the key, or the values of the keys in a tuple. -/
def IsGroupKey (R : Runtime Val U Err) (r sg : Val) (paths : List (List (Lit Val))) : Prop :=
  match paths with
  | [p] => readPath R r p = pure sg
  | _ => ∀ j (h : j < paths.length), ∃ v,
      readPath R r paths[j] = pure v ∧ runOp R .getitem [sg, R.lit (.int (.ofNat j))] = pure v

/-- The texts of the keys. -/
def keyTexts (N : Names Val) (paths : List (List (Lit Val))) : List String := paths.map (fun p => render N (keyCode p))

/-- Constants of the keys are texts and non-negative integers. -/
def SimpleKeys (paths : List (List (Lit Val))) : Prop := ∀ p ∈ paths, ∀ l ∈ p, simpleLit l = true

theorem resultItem_eq (hN : PyNames printable N) {paths : List (List (Lit Val))} (hp : SimpleKeys paths)
    {e : PyExpr Val} (hw : wf N e = true) (hq : quiet N e = true) :
    resultItem (keyTexts N paths) (render N e) =
      if strays N (paths.map keyCode) e then none
      else some (render N (putKeys N (decide (paths.length > 1)) 0 (paths.map keyCode) e)) := by
  have h := replaceKeys_render hN (decide (paths.length > 1)) (paths.map keyCode) 0 e
    (by
      intro k hk
      obtain ⟨p, _, rfl⟩ := List.mem_map.1 hk
      exact ⟨chain_key p, wf_key p⟩) hw hq
  have hk := putKeys_ok hN (decide (paths.length > 1)) (paths.map keyCode) 0 e hw hq
  rw [List.map_map] at h
  have h' : replaceKeys (decide ((keyTexts N paths).length > 1)) 0 (keyTexts N paths) (render N e) =
      render N (putKeys N (decide (paths.length > 1)) 0 (paths.map keyCode) e) := by
    rw [show (keyTexts N paths).length = paths.length by simp [keyTexts]]
    exact h
  simp only [resultItem, h', isIn_row hN hk.1 hk.2, mentions_putKeys hN _ paths 0 e hp hw]

theorem eval_sig_one {ρ : Env Val} {sg : Val} (h : ρ varSignature = some sg) (j : Nat) :
    eval R fuel (sigExpr false j) ρ = pure sg := by
  simp only [sigExpr, Bool.false_eq_true, if_false, eval, runName, h]

theorem eval_sig_many {ρ : Env Val} {sg : Val} (h : ρ varSignature = some sg) (j : Nat) :
    eval R fuel (sigExpr true j) ρ = runOp R .getitem [sg, R.lit (.int (.ofNat j))] := by
  simp only [sigExpr, if_true, eval, runName, h]
  rfl

theorem keys_ok (hN : PyNames printable N) {paths : List (List (Lit Val))} (hp : SimpleKeys paths) {r sg : Val}
    (hs : IsGroupKey R r sg paths) (i : Nat) (h : i < (paths.map (keyCode (Val := Val))).length) :
    KeyOk R fuel N (paths.map keyCode)[i] (sigExpr (decide (paths.length > 1)) (0 + i)) r sg := by
  intro e hw hk ρ hρ
  have hi : i < paths.length := by simpa using h
  rw [List.getElem_map] at hk
  rw [key_of_text hN (hp _ (List.getElem_mem hi)) hw hk, eval_key hρ.1, Nat.zero_add]
  match paths, hi, hs with
  | [p], hi, hs =>
    obtain rfl : i = 0 := by simp at hi; exact hi
    exact (eval_sig_one hρ.2 0).trans hs.symm
  | p :: q :: ps, hi, hs =>
    obtain ⟨v, h1, h2⟩ := hs i hi
    have hl : decide ((p :: q :: ps).length > 1) = true := by simp
    rw [hl, eval_sig_many hρ.2, h2, h1]

theorem off_set {x : String} (ρ : Env Val) (v : Val) : Off x (ρ.set x v) ρ := by
  intro n hn
  simp only [Env.set, hn, if_false]

theorem value_putKeys (hN : PyNames printable N) {paths : List (List (Lit Val))} (hp : SimpleKeys paths) {r sg : Val}
    (hs : IsGroupKey R r sg paths) {e : PyExpr Val} (hw : wf N e = true) (hq : quiet N e = true)
    (hm : mentions varSignature e = false) (hst : strays N (paths.map keyCode) e = false) (A : Env Val) :
    eval R fuel (putKeys N (decide (paths.length > 1)) 0 (paths.map keyCode) e) (A.set varSignature sg) =
      eval R fuel e (A.set varRow r) := by
  have hne : varSignature ≠ varRow := by decide +kernel
  have hb : Both r sg ((A.set varSignature sg).set varRow r) := by
    constructor
    · simp [Env.set]
    · simp [Env.set, hne]
  have h1 := eval_putKeys (R := R) (fuel := fuel) (decide (paths.length > 1)) hN (paths.map keyCode) 0 e
    (keys_ok hN hp hs) hw hq _ hb
  have h2 := eval_off (R := R) (fuel := fuel)
    (putKeys N (decide (paths.length > 1)) 0 (paths.map keyCode) e)
    (by rw [mentions_putKeys hN _ paths 0 e hp hw, hst]) (off_set (x := varRow) (A.set varSignature sg) r)
  have h3 : Off varSignature ((A.set varSignature sg).set varRow r) (A.set varRow r) := by
    intro n hn
    simp only [Env.set]
    split
    · rfl
    · simp only [hn, if_false]
  rw [← h2, h1, eval_off e hm h3]

/-! ## C42: group keys in the result are the group's keys -/

/-- **C42**, what is accepted: the text which replaces the item's code is read by Python as an expression whose
value, given the group's key as `signature_`, is the value of the item on the row — whatever the item does with the
keys (lookups, calls, comprehensions, …).  What is missing: keys are lookups by constants, and names and constants
of the item do not have `row_` as a part (`C42_refuted_constant`, `C42_refuted_attribute`). -/
theorem C42_value_partial (hN : PyNames printable N) {paths : List (List (Lit Val))} (hp : SimpleKeys paths)
    {e : PyExpr Val} (hw : wf N e = true) (hq : quiet N e = true) (hm : mentions varSignature e = false) {t : String}
    (ht : resultItem (keyTexts N paths) (render N e) = some t) :
    ∃ e', t = render N e' ∧ Parses t (tree N e') ∧ mentions varRow e' = false ∧
      ∀ (U Err : Type) (R : Runtime Val U Err) (fuel : Nat) (r sg : Val) (A : Env Val), IsGroupKey R r sg paths →
        eval R fuel e' (A.set varSignature sg) = eval R fuel e (A.set varRow r) := by
  rw [resultItem_eq hN hp hw hq] at ht
  cases hst : strays N (paths.map keyCode) e with
  | true => simp [hst] at ht
  | false =>
    simp only [hst, Bool.false_eq_true, if_false, Option.some.injEq] at ht
    have hk := putKeys_ok hN (decide (paths.length > 1)) (paths.map keyCode) 0 e hw hq
    refine ⟨_, ht.symm, ?_, ?_, ?_⟩
    · rw [← ht]
      exact parses_render hN _ hk.1
    · rw [mentions_putKeys hN _ paths 0 e hp hw, hst]
    · intro U Err R fuel r sg A hs
      exact value_putKeys hN hp hs hw hq hm hst A

/-- **C42**, what is rejected: just the items which use the row outside of the keys. -/
theorem C42_rejected_partial (hN : PyNames printable N) {paths : List (List (Lit Val))} (hp : SimpleKeys paths)
    {e : PyExpr Val} (hw : wf N e = true) (hq : quiet N e = true) :
    resultItem (keyTexts N paths) (render N e) = none ↔ strays N (paths.map keyCode) e = true := by
  rw [resultItem_eq hN hp hw hq]
  cases strays N (paths.map keyCode) e <;> simp

theorem quiet_wrapAll : ∀ (path : List (Lit Val)) {e : PyExpr Val}, quiet N e = true →
    (∀ l ∈ path, clean (N.const l) = true) → quiet N (wrapAll false e (path.map .const)) = true
  | [], _, h, _ => h
  | l :: ls, e, h, hl => by
    simp only [List.map_cons, wrapAll, wrapItem, Bool.false_eq_true, if_false]
    refine quiet_wrapAll ls ?_ (fun l h => hl l (by simp [h]))
    simp only [quiet, h, hl l (by simp), Bool.and_self]

theorem quiet_key {path : List (Lit Val)} (h : ∀ l ∈ path, clean (N.const l) = true) : quiet N (keyCode path) = true :=
  quiet_wrapAll path (by simp [quiet]) h

theorem mentions_wrapAll {x : String} : ∀ (path : List (Lit Val)) {e : PyExpr Val}, mentions x e = false →
    mentions x (wrapAll false e (path.map .const)) = false
  | [], _, h => h
  | l :: ls, e, h => by
    simp only [List.map_cons, wrapAll, wrapItem, Bool.false_eq_true, if_false]
    refine mentions_wrapAll ls ?_
    simp only [mentions, h, Bool.or_self]

theorem strays_key {keys : List (PyExpr Val)} {path : List (Lit Val)} (h : keyCode path ∈ keys) :
    strays N keys (keyCode path) = false := by
  have ha : keys.any (fun key => isKey N key (keyCode path)) = true :=
    List.any_eq_true.2 ⟨_, h, isKey_self path⟩
  revert ha
  cases hk : keyCode path with
  | name n =>
    intro ha
    simp only [strays, ha, Bool.not_true, Bool.and_false]
  | sub a b =>
    intro ha
    simp only [strays, ha, Bool.not_true, Bool.false_and]
  | _ => have := chain_key path; rw [hk] at this; simp [isChain] at this

/-- **C42**: a key mentioned in the result is accepted, and evaluates to the value of that key, for all keys (also
if one is a part of another). -/
theorem C42_key_partial (hN : PyNames printable N) {paths : List (List (Lit Val))} (hp : SimpleKeys paths)
    {p : List (Lit Val)} (hin : p ∈ paths) (hc : ∀ l ∈ p, clean (N.const l) = true) :
    ∃ e', resultItem (keyTexts N paths) (render N (keyCode p)) = some (render N e') ∧
      Parses (render N e') (tree N e') ∧
      ∀ (U Err : Type) (R : Runtime Val U Err) (fuel : Nat) (r sg : Val) (A : Env Val), IsGroupKey R r sg paths →
        eval R fuel e' (A.set varSignature sg) = readPath R r p := by
  have hm : mentions varSignature (keyCode p) = false :=
    mentions_wrapAll p (by simp only [mentions]; decide +kernel)
  cases ht : resultItem (keyTexts N paths) (render N (keyCode p)) with
  | none =>
    rw [C42_rejected_partial hN hp (wf_key p) (quiet_key hc), strays_key (List.mem_map.2 ⟨p, hin, rfl⟩)] at ht
    cases ht
  | some t =>
    obtain ⟨e', h1, h2, _, h3⟩ := C42_value_partial hN hp (wf_key p) (quiet_key hc) hm ht
    refine ⟨e', by rw [h1], h1 ▸ h2, ?_⟩
    intro U Err R fuel r sg A hs
    rw [h3 U Err R fuel r sg A hs]
    exact eval_key (by simp [Env.set]) p

theorem strays_other (hN : PyNames printable N) {paths : List (List (Lit Val))} (hp : SimpleKeys paths)
    {q : List (Lit Val)} (h : ∀ p ∈ paths, ¬ p <+: q) : strays N (paths.map keyCode) (keyCode q) = true := by
  have key : ∀ n (q : List (Lit Val)), q.length = n → (∀ p ∈ paths, ¬ p <+: q) →
      strays N (paths.map keyCode) (keyCode q) = true := by
    intro n
    induction n with
    | zero =>
      intro q hq h
      rw [List.length_eq_zero_iff] at hq
      subst hq
      have : (paths.map keyCode).any (fun key => isKey N key (.name varRow)) = false := by
        rw [List.any_eq_false]
        intro k hk hk'
        obtain ⟨p, hp1, rfl⟩ := List.mem_map.1 hk
        have := keyCode_inj (q := []) (key_of_text hN (hp p hp1) (wf_key (N := N) []) hk').symm
        exact h p hp1 (this ▸ List.prefix_rfl)
      show strays N (paths.map keyCode) (.name varRow) = true
      simp only [strays, this, beq_self_eq_true, Bool.not_false, Bool.and_self]
    | succ n ih =>
      intro q hq h
      rcases List.eq_nil_or_concat q with rfl | ⟨q', l, rfl⟩
      · simp at hq
      · rw [List.concat_eq_append] at hq h ⊢
        have h2 := ih q' (by simpa using hq) (fun p hp hpre => h p hp (hpre.trans (List.prefix_append q' [l])))
        have : (paths.map keyCode).any (fun key => isKey N key (keyCode (q' ++ [l]))) = false := by
          rw [List.any_eq_false]
          intro k hk hk'
          obtain ⟨p, hp1, rfl⟩ := List.mem_map.1 hk
          have := keyCode_inj (key_of_text hN (hp p hp1) (wf_key (N := N) (q' ++ [l])) hk').symm
          exact h p hp1 (this ▸ List.prefix_rfl)
        rw [keyCode_snoc] at this ⊢
        simp only [strays, this, h2, Bool.not_false, Bool.true_or, Bool.and_self]
  exact key _ q rfl h

/-- **C42**: another field of the rows — one which is not inside of a key — is rejected. -/
theorem C42_other_partial (hN : PyNames printable N) {paths : List (List (Lit Val))} (hp : SimpleKeys paths)
    {q : List (Lit Val)} (hc : ∀ l ∈ q, clean (N.const l) = true) (h : ∀ p ∈ paths, ¬ p <+: q) :
    resultItem (keyTexts N paths) (render N (keyCode q)) = none :=
  (C42_rejected_partial hN hp (wf_key q) (quiet_key hc)).mpr (strays_other hN hp h)

theorem resultItems_eq (hN : PyNames printable N) {paths : List (List (Lit Val))} (hp : SimpleKeys paths) :
    ∀ {es : List (PyExpr Val)}, wfAll N es = true → quietAll N es = true →
    resultItems (keyTexts N paths) (renderAll N es) =
      if straysAny N (paths.map keyCode) es then none
      else some (renderAll N (es.map (putKeys N (decide (paths.length > 1)) 0 (paths.map keyCode))))
  | [], _, _ => rfl
  | e :: es, w, q => by
    simp only [wfAll, quietAll, Bool.and_eq_true] at w q
    simp only [renderAll, resultItems, resultItem_eq hN hp w.1 q.1, resultItems_eq hN hp w.2 q.2, straysAny,
      List.map_cons]
    cases strays N (paths.map keyCode) e <;> cases straysAny N (paths.map keyCode) es <;> rfl

/-- **C42** for the collections of results: the items are replaced one by one, in their places; one item with another
field is enough for the whole to be rejected. -/
theorem C42_collection_partial (hN : PyNames printable N) {paths : List (List (Lit Val))} (hp : SimpleKeys paths)
    {es : List (PyExpr Val)} (hw : wfAll N es = true) (hq : quietAll N es = true) (k : Kind) :
    rebuild (keyTexts N paths) (.coll k) (renderAll N es) =
      if es.any (strays N (paths.map keyCode)) then none
      else some (render N (.display k (es.map (putKeys N (decide (paths.length > 1)) 0 (paths.map keyCode))))) := by
  have ha : ∀ es : List (PyExpr Val),
      straysAny N (paths.map keyCode) es = es.any (strays N (paths.map keyCode)) := by
    intro es
    induction es with
    | nil => rfl
    | cons e es ih => simp only [straysAny, List.any_cons, ih]
  have h := resultItems_eq hN hp hw hq
  rw [ha] at h
  cases k <;> simp only [rebuild, h] <;> split <;> simp [render]

end

/-! ## Examples -/

section
open Toy

/-- Names for code with values of `Toy`. -/
def plain : Names V where
  const
    | .none => "None"
    | .bool b => if b then "True" else "False"
    | .int i => String.ofList (reprInt i)
    | .str s => String.ofList (reprStr ascii s.toList)
    | .obj _ => "obj_value"
  param _ := "i_"
  helper _ _ := "helper_"
  cached _ := "cached_val_1"

theorem plain_names : PyNames ascii plain where
  none := rfl
  bool _ := rfl
  int _ := rfl
  str _ := rfl
  obj _ := show isName "obj_value" = true by decide +kernel
  param _ := show isName "i_" = true by decide +kernel
  helper _ _ := show isName "helper_" = true by decide +kernel
  cached _ := show plainText "cached_val_1".toList = true by decide +kernel

/-- Two keys: `c.item("a")` and `c.item("b", 0)`. -/
def twoKeys : List (List (Lit V)) := [[.str "a"], [.str "b", .int 0]]

theorem twoKeys_simple : SimpleKeys twoKeys := by
  intro p hp l hl
  simp only [twoKeys, List.mem_cons, List.not_mem_nil, or_false] at hp
  rcases hp with rfl | rfl <;> simp only [List.mem_cons, List.not_mem_nil, or_false] at hl
  · rw [hl]; rfl
  · rcases hl with rfl | rfl <;> rfl

/-- An item with both keys: `c.item("b", 0) + c.item("a") * 2`. -/
def bothKeys : PyExpr V :=
  .bin .add (keyCode [.str "b", .int 0]) (.bin .mul (keyCode [.str "a"]) (.const (.int 2)))

example : keyTexts plain twoKeys = ["row_['a']", "row_['b'][0]"] := by decide +kernel

example : resultItem (keyTexts plain twoKeys) (render plain bothKeys) =
    some "(signature_[1] + (signature_[0] * 2))" := by decide +kernel

/-- The row and the key of its group. -/
def row : V := .dict [.str "a", .int 5, .str "b", .list [.int 7, .int 8]]

theorem row_key : IsGroupKey Toy.R row (.tuple [.int 5, .int 7]) twoKeys := by
  intro j h
  match j, h with
  | 0, _ => exact ⟨.int 5, rfl, rfl⟩
  | 1, _ => exact ⟨.int 7, rfl, rfl⟩

example : ∃ e', resultItem (keyTexts plain twoKeys) (render plain bothKeys) = some (render plain e') ∧
    ∀ fuel A, eval Toy.R fuel e' (Env.set A varSignature (.tuple [.int 5, .int 7])) =
      eval Toy.R fuel bothKeys (A.set varRow row) := by
  obtain ⟨e', h1, _, _, h3⟩ := C42_value_partial plain_names twoKeys_simple (e := bothKeys)
    (t := "(signature_[1] + (signature_[0] * 2))") (by decide +kernel) (by decide +kernel) (by decide +kernel)
    (by decide +kernel)
  refine ⟨e', ?_, fun fuel A => h3 _ _ Toy.R fuel row _ A row_key⟩
  rw [← h1]
  decide +kernel

/-- A key which is a part of another key. -/
example : resultItem (keyTexts plain [[.str "a"], [.str "a", .int 0]]) (render plain (keyCode [.str "a", .int 0])) =
    some "signature_[0][0]" := by decide +kernel

example : resultItem (keyTexts plain twoKeys) (render plain (keyCode [.str "b", .int 1])) = none := by
  refine C42_other_partial plain_names twoKeys_simple ?_ ?_
  · intro l hl
    simp only [List.mem_cons, List.not_mem_nil, or_false] at hl
    rcases hl with rfl | rfl <;> decide +kernel
  · intro p hp
    simp only [twoKeys, List.mem_cons, List.not_mem_nil, or_false] at hp
    rcases hp with rfl | rfl <;> intro h <;> rcases h with ⟨t, h⟩ <;> simp at h

example : strays plain (twoKeys.map keyCode) (.bin .add (keyCode [.str "b", .int 0]) (keyCode [.str "c"])) = true := by
  decide +kernel

example : rebuild (keyTexts plain twoKeys) (.coll .dict) (renderAll plain
    [.const (.str "sum"), bothKeys, .const (.str "a"), keyCode [.str "a"]]) =
    some "{'sum':(signature_[1] + (signature_[0] * 2)),'a':signature_[0]}" := by decide +kernel

/-! ## Where the claim is false -/

/-- A constant (or a key of the resulting dict) with `row_` as a part of its text is rejected, although no field of
the rows is mentioned.  In `aggregate` too, where there are no keys. -/
theorem C42_refuted_constant :
    mentions varRow (.const (.str "throw_count") : PyExpr V) = false ∧
    resultItem (keyTexts plain twoKeys) (render plain (.const (.str "throw_count"))) = none ∧
    resultItem [] (render plain (.const (.str "throw_count"))) = none ∧
    rebuild (keyTexts plain twoKeys) (.coll .dict)
      (renderAll plain [.const (.str "throw_count"), keyCode [.str "a"]]) = none := by
  decide +kernel

/-- With the whole row as the key (`c.this()`) such a constant becomes another constant. -/
theorem C42_refuted_changed :
    resultItem (keyTexts plain [[]]) (render plain (.const (.str "throw_count"))) =
      some (render plain (.const (.str "thsignature_count"))) := by
  decide +kernel

/-- The row has a field `ab`, which is not the key `a`; the result mentions it, is accepted, and reads a variable
which does not exist. -/
theorem C42_refuted_attribute :
    let key : PyExpr V := gen plain false (.lookup true .this [.naive (.str "a")]) (.name varRow) []
    let item : PyExpr V := gen plain false (.lookup true .this [.naive (.str "ab")]) (.name varRow) []
    render plain item ≠ render plain key ∧
    resultItem [render plain key] (render plain item) = some (render plain (.name "signature_b")) := by
  decide +kernel

/-- A constant key before a lookup by the same constant: the second key is rejected in the result. -/
theorem C42_refuted_constant_key :
    resultItem [render plain (.const (.int 1)), render plain (keyCode [.int 1])] (render plain (keyCode [.int 1])) =
      none := by
  decide +kernel

end

end Verif.GroupKeys
