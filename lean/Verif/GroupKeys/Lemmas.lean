import Verif.GroupKeys.Eval
import Verif.Text.GenLemmas
import Verif.Text.ParseMono

/-!
# Group keys: keys which are lookups by constants
-/

set_option autoImplicit false

namespace Verif.GroupKeys

open Verif.Expr Verif.Text

section
variable {Val U Err : Type} {printable : Char → Bool} {N : Names Val} {R : Runtime Val U Err} {fuel : Nat}

/-- Texts and numbers. -/
def simpleLit : Lit Val → Bool
  | .str _ => true
  | .int (.ofNat _) => true
  | _ => false

/-- The code of a key: `c.item(...)` with constants (base.py 1283-1312) on `row_`. -/
def keyCode (path : List (Lit Val)) : PyExpr Val := wrapAll false (.name varRow) (path.map .const)

theorem genAll_naive (e : PyExpr Val) (p : List Nat) : ∀ (path : List (Lit Val)) (n : Nat),
    genAll N (path.map .naive) e p n = path.map .const
  | [], _ => rfl
  | l :: ls, n => by
    simp only [List.map_cons, genAll, genAll_naive e p ls, gen, fin, Bool.false_eq_true, if_false]

/-- It is the code of that conversion. -/
theorem gen_key (path : List (Lit Val)) (p : List Nat) :
    gen N false (.lookup false .this (path.map .naive)) (.name varRow) p = keyCode path := by
  simp only [gen, fin, Bool.false_eq_true, if_false, genAll_naive, keyCode]

theorem keyCode_snoc (path : List (Lit Val)) (l : Lit Val) : keyCode (path ++ [l]) = .sub (keyCode path) (.const l) := by
  rw [keyCode, List.map_append, List.map_cons, List.map_nil, wrapAll_snoc]
  rfl

theorem chain_wrapAll : ∀ (is : List (PyExpr Val)) {e : PyExpr Val}, isChain e = true →
    isChain (wrapAll false e is) = true
  | [], _, h => h
  | i :: is, e, h => by
    simp only [wrapAll, wrapItem, Bool.false_eq_true, if_false]
    exact chain_wrapAll is h

theorem wf_wrapAll : ∀ (is : List (PyExpr Val)) {e : PyExpr Val}, wf N e = true → isNeg e = false →
    (∀ i ∈ is, wf N i = true) → wf N (wrapAll false e is) = true
  | [], _, h, _, _ => h
  | i :: is, e, h, hn, hi => by
    simp only [wrapAll, wrapItem, Bool.false_eq_true, if_false]
    refine wf_wrapAll is ?_ rfl (fun j hj => hi j (by simp [hj]))
    simp only [wf, hn, h, hi i (by simp), Bool.not_false, Bool.and_self]

theorem chain_key (path : List (Lit Val)) : isChain (keyCode path) = true := chain_wrapAll _ rfl

theorem wf_key (path : List (Lit Val)) : wf N (keyCode path) = true := by
  refine wf_wrapAll _ (show isName varRow = true by decide +kernel) rfl ?_
  intro i hi
  obtain ⟨l, _, rfl⟩ := List.mem_map.1 hi
  rfl

/-! ## The text of a constant is the text of nothing else -/

theorem sortTree_ne_str {k : Kind} {a : Ast} {sort : Option (Lit Val × Bool)} {s : List Char}
    (h : ∀ s, a ≠ .str s) : sortTree N k a sort ≠ .str s := by
  cases sort with
  | none => exact h s
  | some p => cases k <;> simp [sortTree]

theorem sortTree_ne_num {k : Kind} {a : Ast} {sort : Option (Lit Val × Bool)} {n : Nat}
    (h : ∀ n, a ≠ .num n) : sortTree N k a sort ≠ .num n := by
  cases sort with
  | none => exact h n
  | some p => cases k <;> simp [sortTree]

theorem tree_str {i : PyExpr Val} {s : List Char} (h : tree N i = .str s) : i = .const (.str (String.ofList s)) := by
  cases i with
  | const l =>
    cases l with
    | str t => simp only [tree, litTree, Ast.str.injEq] at h; rw [← h, String.ofList_toList]
    | int i => cases i <;> simp [tree, litTree] at h
    | _ => simp [tree, litTree] at h
  | comp k item value var iter hasCond cond sort =>
    simp only [tree] at h
    refine absurd h (sortTree_ne_str ?_)
    intro s
    cases k <;> cases sort <;> simp
  | bin o a b => cases o <;> simp [tree, opTree] at h
  | display k items => cases k <;> simp [tree] at h
  | eqs es => simp only [tree] at h; split at h <;> simp at h
  | _ => simp [tree] at h

theorem tree_num {i : PyExpr Val} {n : Nat} (h : tree N i = .num n) : i = .const (.int (.ofNat n)) := by
  cases i with
  | const l =>
    cases l with
    | int i =>
      cases i with
      | ofNat m => simp only [tree, litTree, Ast.num.injEq] at h; rw [h]
      | negSucc m => simp [tree, litTree] at h
    | _ => simp [tree, litTree] at h
  | comp k item value var iter hasCond cond sort =>
    simp only [tree] at h
    refine absurd h (sortTree_ne_num ?_)
    intro s
    cases k <;> cases sort <;> simp
  | bin o a b => cases o <;> simp [tree, opTree] at h
  | display k items => cases k <;> simp [tree] at h
  | eqs es => simp only [tree] at h; split at h <;> simp at h
  | _ => simp [tree] at h

theorem const_of_text (hN : PyNames printable N) {l : Lit Val} (hl : simpleLit l = true) {i : PyExpr Val}
    (hw : wf N i = true) (h : render N i = render N (.const l)) : i = .const l := by
  have h1 := parses_render hN i hw
  have h2 := parses_render hN (.const l) rfl
  rw [h] at h1
  have ht := parses_unique h1 h2
  cases l with
  | str s => rw [tree_str (i := i) (s := s.toList) ht, String.ofList_toList]
  | int n =>
    cases n with
    | ofNat n => exact tree_num (i := i) (n := n) ht
    | negSucc n => simp [simpleLit] at hl
  | _ => simp [simpleLit] at hl

theorem idx_inj (hN : PyNames printable N) : ∀ (path : List (Lit Val)) (is : List (PyExpr Val)),
    (∀ l ∈ path, simpleLit l = true) → (∀ i ∈ is, wf N i = true) → idxText N is = idxText N (path.map .const) →
    is = path.map .const
  | [], [], _, _, _ => rfl
  | [], i :: is, _, _, h => by simp [idxText] at h
  | l :: ls, [], _, _, h => by simp [idxText] at h
  | l :: ls, i :: is, hl, hi, h => by
    simp only [List.map_cons, idxText, List.cons.injEq, true_and] at h
    obtain ⟨h1, h2⟩ := bracket hN (hi i (by simp)) (show wf N (.const l) = true from rfl) h
    rw [List.map_cons, const_of_text hN (hl l (by simp)) (hi i (by simp)) h1,
      idx_inj hN ls is (fun l hl' => hl l (by simp [hl'])) (fun j hj => hi j (by simp [hj])) h2]

/-- Code with the text of a key is the code of the key. -/
theorem key_of_text (hN : PyNames printable N) {path : List (Lit Val)} (hl : ∀ l ∈ path, simpleLit l = true)
    {e : PyExpr Val} (hw : wf N e = true) (h : isKey N (keyCode path) e = true) : e = keyCode path := by
  simp only [isKey, Bool.and_eq_true, beq_iff_eq] at h
  obtain ⟨is, rfl, hi⟩ := chain_wrap e h.1 hw
  have ht := congrArg String.toList h.2
  rw [keyCode, render_wrap, render_wrap, List.append_cancel_left_eq] at ht
  rw [idx_inj hN path is hl hi ht, keyCode]

theorem isKey_self (path : List (Lit Val)) : isKey N (keyCode path) (keyCode path) = true := by
  simp [isKey, chain_key]

theorem keyCode_inj {p q : List (Lit Val)} (h : keyCode p = keyCode q) : p = q := by
  have len : ∀ (is : List (PyExpr Val)) (e : PyExpr Val), sizeOf e ≤ sizeOf (wrapAll false e is) := by
    intro is
    induction is with
    | nil => intro e; exact Nat.le_refl _
    | cons i is ih =>
      intro e
      simp only [wrapAll, wrapItem, Bool.false_eq_true, if_false]
      refine Nat.le_trans ?_ (ih (.sub e i))
      simp only [PyExpr.sub.sizeOf_spec]
      omega
  have key : ∀ n (p q : List (Lit Val)), p.length = n → keyCode p = keyCode q → p = q := by
    intro n
    induction n with
    | zero =>
      intro p q hp h
      rw [List.length_eq_zero_iff] at hp
      subst hp
      rcases List.eq_nil_or_concat q with rfl | ⟨q', l, rfl⟩
      · rfl
      · rw [List.concat_eq_append, keyCode_snoc] at h
        simp [keyCode, wrapAll] at h
    | succ n ih =>
      intro p q hp h
      rcases List.eq_nil_or_concat p with rfl | ⟨p', l, rfl⟩
      · simp at hp
      · rw [List.concat_eq_append, keyCode_snoc] at h
        rcases List.eq_nil_or_concat q with rfl | ⟨q', l', rfl⟩
        · simp [keyCode, wrapAll] at h
        · rw [List.concat_eq_append, keyCode_snoc] at h
          simp only [PyExpr.sub.injEq, PyExpr.const.injEq] at h
          rw [ih p' q' (by simpa using hp) h.1, h.2]
  exact key _ p q rfl h

/-! ## Values -/

/-- Looking up constants one after the other. -/
def readPath (R : Runtime Val U Err) : Val → List (Lit Val) → M Val U Err Val
  | x, [] => pure x
  | x, l :: ls => do
    let y ← runOp R .getitem [x, R.lit l]
    readPath R y ls

theorem eval_path (ρ : Env Val) : ∀ (path : List (Lit Val)) (e : PyExpr Val),
    eval R fuel (wrapAll false e (path.map .const)) ρ = (eval R fuel e ρ >>= fun x => readPath R x path)
  | [], e => by
    simp only [List.map_nil, wrapAll, readPath]
    rw [bind_pure']
  | l :: ls, e => by
    simp only [List.map_cons, wrapAll, wrapItem, Bool.false_eq_true, if_false]
    rw [eval_path ρ ls, eval, bind_assoc']
    rfl

theorem eval_key {ρ : Env Val} {r : Val} (h : ρ varRow = some r) (path : List (Lit Val)) :
    eval R fuel (keyCode path) ρ = readPath R r path := by
  rw [keyCode, eval_path]
  simp only [eval, runName, h]
  rfl

/-! ## Replacing all keys -/

/-- What stands for a key (1052-1056). -/
def sigExpr (many : Bool) (j : Nat) : PyExpr Val :=
  if many then .sub (.name varSignature) (.const (.int (.ofNat j))) else .name varSignature

/-- All keys replaced, one after the other. -/
def putKeys (N : Names Val) (many : Bool) : Nat → List (PyExpr Val) → PyExpr Val → PyExpr Val
  | _, [], e => e
  | j, key :: keys, e => putKeys N many (j + 1) keys (put N key (sigExpr many j) e)

theorem getter_render (hN : PyNames printable N) (many : Bool) (j : Nat) :
    render N (sigExpr many j) = getter many j := by
  cases many
  · rfl
  · simp only [sigExpr, getter, if_true, render, hN.int]
    rfl

theorem digits_clean (ds : List Char) (h : ∀ c ∈ ds, c.isDigit = true) : isIn varRow (String.ofList ds) = false := by
  cases hi : isIn varRow (String.ofList ds) with
  | false => rfl
  | true =>
    obtain ⟨u, v, e1, ⟨r, e2⟩⟩ := isIn_iff.1 hi
    rw [String.toList_ofList] at e1
    have : 'r' ∈ ds := by
      rw [e1, ← e2]
      simp [varRow]
    exact absurd (h 'r' this) (by decide)

theorem sigOk (hN : PyNames printable N) (many : Bool) (j : Nat) : SigOk N (sigExpr many j) := by
  have hw : isName varSignature = true := by decide +kernel
  have hq : clean varSignature = true := by decide +kernel
  have hd : clean (N.const (.int (.ofNat j))) = true := by
    rw [clean, hN.int, digits_clean]
    · rfl
    · exact fun c hc => Nat.isDigit_of_mem_toDigits (by decide) (by decide) hc
  cases many
  · exact ⟨hw, by simp only [sigExpr, Bool.false_eq_true, if_false, quiet, hq, Bool.or_true], rfl, rfl, rfl⟩
  · refine ⟨?_, ?_, rfl, rfl, rfl⟩
    · simp only [sigExpr, if_true, wf, hw, isNeg, Bool.not_false, Bool.and_self]
    · simp only [sigExpr, if_true, quiet, hq, hd, Bool.or_true, Bool.and_self]

theorem putKeys_ok (hN : PyNames printable N) (many : Bool) : ∀ (keys : List (PyExpr Val)) (j : Nat) (e : PyExpr Val),
    wf N e = true → quiet N e = true → wf N (putKeys N many j keys e) = true ∧
      quiet N (putKeys N many j keys e) = true
  | [], _, _, hw, hq => ⟨hw, hq⟩
  | _ :: keys, j, e, hw, hq =>
    putKeys_ok hN many keys (j + 1) _ (wf_put (sigOk hN many j) e hw) (quiet_put (sigOk hN many j) e hq)

theorem replaceKeys_render (hN : PyNames printable N) (many : Bool) : ∀ (keys : List (PyExpr Val)) (j : Nat)
    (e : PyExpr Val), (∀ k ∈ keys, isChain k = true ∧ wf N k = true) → wf N e = true → quiet N e = true →
    replaceKeys many j (keys.map (render N)) (render N e) = render N (putKeys N many j keys e)
  | [], _, _, _, _, _ => rfl
  | key :: keys, j, e, hk, hw, hq => by
    have hkey := hk key (by simp)
    have h1 : (if isIn (render N key) (render N e) then replace (render N e) (render N key) (getter many j)
        else render N e) = render N (put N key (sigExpr many j) e) := by
      rw [← replace_render hN hkey.1 hkey.2 (sigExpr many j) hw hq, getter_render hN]
      split
      · rfl
      · rename_i h
        rw [same_of_not_in (by simpa using h)]
    simp only [List.map_cons, replaceKeys, h1, putKeys]
    exact replaceKeys_render hN many keys (j + 1) _ (fun k hk' => hk k (by simp [hk']))
      (wf_put (sigOk hN many j) e hw) (quiet_put (sigOk hN many j) e hq)

theorem eval_putKeys {r sg : Val} (many : Bool) (hN : PyNames printable N) : ∀ (keys : List (PyExpr Val)) (j : Nat)
    (e : PyExpr Val), (∀ i (h : i < keys.length), KeyOk R fuel N keys[i] (sigExpr many (j + i)) r sg) →
    wf N e = true → quiet N e = true → ∀ ρ, Both r sg ρ →
    eval R fuel (putKeys N many j keys e) ρ = eval R fuel e ρ
  | [], _, _, _, _, _, _, _ => rfl
  | key :: keys, j, e, hk, hw, hq, ρ, hρ => by
    rw [putKeys, eval_putKeys many hN keys (j + 1) _ (fun i hi => by
      have := hk (i + 1) (by simpa using hi)
      rw [show j + (i + 1) = j + 1 + i by omega] at this
      exact this) (wf_put (sigOk hN many j) e hw) (quiet_put (sigOk hN many j) e hq) ρ hρ]
    exact eval_put (hk 0 (by simp)) e hw hq ρ hρ

/-! ## Uses of the row outside of the keys -/

mutual

theorem strays_nil : ∀ e : PyExpr Val, strays N [] e = mentions varRow e
  | .name n => by simp only [strays, mentions, List.any_nil, Bool.not_false, Bool.and_true]
  | .sub e i => by simp only [strays, mentions, List.any_nil, Bool.not_false, Bool.true_and, strays_nil e, strays_nil i]
  | .bad _ => rfl
  | .given _ _ => rfl
  | .const _ => rfl
  | .getLabel _ => rfl
  | .addLabel _ e => by simp only [strays, mentions, strays_nil e]
  | .attach a b => by simp only [strays, mentions, strays_nil a, strays_nil b]
  | .dot e _ => by simp only [strays, mentions, strays_nil e]
  | .getattr e i => by simp only [strays, mentions, strays_nil e, strays_nil i]
  | .not e => by simp only [strays, mentions, strays_nil e]
  | .neg e => by simp only [strays, mentions, strays_nil e]
  | .ifexp t c f => by simp only [strays, mentions, strays_nil t, strays_nil c, strays_nil f]
  | .bin _ a b => by simp only [strays, mentions, strays_nil a, strays_nil b]
  | .getOrDefault _ _ sg self obj dflt => by simp only [strays, mentions, strays_nil self, strays_nil obj, strays_nil dflt]
  | .optItems _ _ _ _ obj _ => by simp only [strays, mentions, strays_nil obj]
  | .optDict _ _ _ obj _ => by simp only [strays, mentions, strays_nil obj]
  | .tap _ obj _ _ => by simp only [strays, mentions, strays_nil obj]
  | .setitem o k v => by simp only [strays, mentions, strays_nil o, strays_nil k, strays_nil v]
  | .setattr o k v => by simp only [strays, mentions, strays_nil o, strays_nil k, strays_nil v]
  | .pop o k => by simp only [strays, mentions, strays_nil o, strays_nil k]
  | .delattr o k => by simp only [strays, mentions, strays_nil o, strays_nil k]
  | .comp _ item value _ iter _ cond _ => by simp only [strays, mentions, strays_nil item, strays_nil value, strays_nil iter, strays_nil cond]
  | .call f args _ => by simp only [strays, mentions, strays_nil f, straysAny_nil args]
  | .boolop _ es => by simp only [strays, mentions, straysAny_nil es]
  | .eqs es => by simp only [strays, mentions, straysAny_nil es]
  | .display _ items => by simp only [strays, mentions, straysAny_nil items]

theorem straysAny_nil : ∀ es : List (PyExpr Val), straysAny N [] es = mentionsAny varRow es
  | [] => rfl
  | e :: es => by simp only [straysAny, mentionsAny, strays_nil e, straysAny_nil es]

end

/-- Putting a key in place leaves a lookup alone, or leaves no use of the row. -/
theorem put_lookup {key sig : PyExpr Val} {keys : List (PyExpr Val)} (hs : strays N keys sig = false)
    (path : List (Lit Val)) :
    put N key sig (keyCode path) = keyCode path ∨ strays N keys (put N key sig (keyCode path)) = false := by
  have : ∀ n (path : List (Lit Val)), path.length = n →
      put N key sig (keyCode path) = keyCode path ∨ strays N keys (put N key sig (keyCode path)) = false := by
    intro n
    induction n with
    | zero =>
      intro path h
      rw [List.length_eq_zero_iff] at h
      subst h
      show put N key sig (.name varRow) = .name varRow ∨ strays N keys (put N key sig (.name varRow)) = false
      simp only [put]
      split
      · exact .inr hs
      · exact .inl rfl
    | succ n ih =>
      intro path h
      rcases List.eq_nil_or_concat path with rfl | ⟨p, l, rfl⟩
      · simp at h
      · rw [List.concat_eq_append, keyCode_snoc]
        simp only [put]
        split
        · exact .inr hs
        · rcases ih p (by simpa using h) with h1 | h1
          · exact .inl (by rw [h1])
          · right
            simp only [strays, h1, Bool.or_self, Bool.and_false]
  exact this _ path rfl

/-- What becomes a lookup was that lookup. -/
theorem lookup_of_put {key sig : PyExpr Val} (hc : isChain sig = false) (hk : ∀ l, sig ≠ .const l)
    (path : List (Lit Val)) : ∀ e : PyExpr Val, put N key sig e = keyCode path → e = keyCode path := by
  have : ∀ n (path : List (Lit Val)), path.length = n → ∀ e : PyExpr Val, put N key sig e = keyCode path →
      e = keyCode path := by
    intro n
    induction n with
    | zero =>
      intro path h e he
      rw [List.length_eq_zero_iff] at h
      subst h
      change put N key sig e = .name varRow at he
      show e = .name varRow
      have hsig : sig ≠ .name varRow := by rintro rfl; simp [isChain] at hc
      cases e with
      | name m =>
        simp only [put] at he
        split at he
        · exact absurd he hsig
        · exact he
      | sub a b =>
        simp only [put] at he
        split at he
        · exact absurd he hsig
        · cases he
      | _ => simp only [put] at he; cases he
    | succ n ih =>
      intro path h e he
      rcases List.eq_nil_or_concat path with rfl | ⟨p, l, rfl⟩
      · simp at h
      · have hsig : sig ≠ keyCode (p.concat l) := by
          rintro rfl
          rw [chain_key] at hc
          cases hc
        rw [List.concat_eq_append, keyCode_snoc] at he hsig ⊢
        cases e with
        | name m =>
          simp only [put] at he
          split at he
          · exact absurd he hsig
          · cases he
        | sub a b =>
          simp only [put] at he
          split at he
          · exact absurd he hsig
          · simp only [PyExpr.sub.injEq] at he
            rw [ih p (by simpa using h) a he.1]
            cases b with
            | const m => simp only [put] at he; rw [he.2]
            | name m =>
              simp only [put] at he
              split at he
              · exact absurd he.2 (hk l)
              · cases he.2
            | sub a b =>
              simp only [put] at he
              split at he
              · exact absurd he.2 (hk l)
              · cases he.2
            | _ => simp only [put] at he; cases he.2
        | _ => simp only [put] at he; cases he
  exact this _ path rfl

section
variable {key sig : PyExpr Val} {paths : List (List (Lit Val))}

/-- Keys are found in the replaced expression as before, or it has no use of the row any more. -/
theorem strays_sub (hN : PyNames printable N) (hsig : SigOk N sig) (hk : ∀ l, sig ≠ .const l)
    (hs : strays N (paths.map keyCode) sig = false) (hp : ∀ p ∈ paths, ∀ l ∈ p, simpleLit l = true)
    {e i : PyExpr Val} (hw : wf N (.sub e i) = true) (hkey : isKey N key (.sub e i) = false)
    (he : strays N (paths.map keyCode) (put N key sig e) = strays N (key :: paths.map keyCode) e)
    (hi : strays N (paths.map keyCode) (put N key sig i) = strays N (key :: paths.map keyCode) i) :
    strays N (paths.map keyCode) (.sub (put N key sig e) (put N key sig i)) =
      strays N (key :: paths.map keyCode) (.sub e i) := by
  have hput : put N key sig (.sub e i) = .sub (put N key sig e) (put N key sig i) := by
    simp only [put, hkey, Bool.false_eq_true, if_false]
  have hw' : wf N (.sub (put N key sig e) (put N key sig i)) = true := by
    rw [← hput]
    exact wf_put hsig _ hw
  by_cases h : (paths.map keyCode).any (fun key => isKey N key (.sub e i)) = true
  · have h' : strays N (key :: paths.map keyCode) (.sub e i) = false := by
      simp only [strays, List.any_cons, h, Bool.or_true, Bool.not_true, Bool.false_and]
    obtain ⟨k, hk1, hk2⟩ := List.any_eq_true.1 h
    obtain ⟨p, hp1, rfl⟩ := List.mem_map.1 hk1
    have hx := key_of_text hN (hp p hp1) hw hk2
    rcases put_lookup (key := key) hs p with h1 | h1
    · rw [h', ← hput, hx, h1, ← hx]
      simp only [strays, h, Bool.not_true, Bool.false_and]
    · rw [h', ← hput, hx, h1]
  · have h0 : (paths.map keyCode).any (fun key => isKey N key (.sub e i)) = false := by simpa using h
    have h2 : (paths.map keyCode).any (fun k => isKey N k (.sub (put N key sig e) (put N key sig i))) = false := by
      rw [List.any_eq_false]
      intro k hk1 hk2
      obtain ⟨p, hp1, rfl⟩ := List.mem_map.1 hk1
      have hx := key_of_text hN (hp p hp1) hw' hk2
      rw [← hput] at hx
      have hy := lookup_of_put hsig.notChain hk p _ hx
      refine h (List.any_eq_true.2 ⟨keyCode p, hk1, ?_⟩)
      show isKey N (keyCode p) (.sub e i) = true
      rw [hy]
      exact isKey_self p
    simp only [strays, List.any_cons, h0, h2, hkey, Bool.or_self, Bool.not_false, Bool.true_and, he, hi]

mutual

theorem strays_put (hN : PyNames printable N) (hsig : SigOk N sig) (hk : ∀ l, sig ≠ .const l)
    (hs : strays N (paths.map keyCode) sig = false) (hp : ∀ p ∈ paths, ∀ l ∈ p, simpleLit l = true) :
    ∀ e : PyExpr Val, wf N e = true →
    strays N (paths.map keyCode) (put N key sig e) = strays N (key :: paths.map keyCode) e
  | .name n, _ => by
    simp only [put]
    split
    · rename_i h
      simp only [hs, strays, List.any_cons, h, Bool.true_or, Bool.not_true, Bool.and_false]
    · rename_i h
      have h : isKey N key (.name n) = false := by simpa using h
      simp only [strays, List.any_cons, h, Bool.false_or]
  | .sub e i, w => by
    by_cases h : isKey N key (.sub e i) = true
    · simp only [put, h, if_true, hs, strays, List.any_cons, Bool.true_or, Bool.not_true, Bool.false_and]
    · have h : isKey N key (.sub e i) = false := by simpa using h
      have w' := w
      simp only [wf, Bool.and_eq_true] at w'
      simp only [put, h, Bool.false_eq_true, if_false]
      exact strays_sub hN hsig hk hs hp w h (strays_put hN hsig hk hs hp e w'.1.2)
        (strays_put hN hsig hk hs hp i w'.2)
  | .bad _, _ => rfl
  | .given _ _, _ => rfl
  | .const _, _ => rfl
  | .getLabel _, _ => rfl
  | .addLabel _ e, w => by
    simp only [wf, Bool.and_eq_true] at w
    simp only [put, strays, strays_put hN hsig hk hs hp e (by simp [w])]
  | .attach a b, w => by
    simp only [wf, Bool.and_eq_true] at w
    simp only [put, strays, strays_put hN hsig hk hs hp a (by simp [w]),
      strays_put hN hsig hk hs hp b (by simp [w])]
  | .dot e _, w => by
    simp only [wf, Bool.and_eq_true] at w
    simp only [put, strays, strays_put hN hsig hk hs hp e (by simp [w])]
  | .getattr e i, w => by
    simp only [wf, Bool.and_eq_true] at w
    simp only [put, strays, strays_put hN hsig hk hs hp e (by simp [w]),
      strays_put hN hsig hk hs hp i (by simp [w])]
  | .not e, w => by
    simp only [wf, Bool.and_eq_true] at w
    simp only [put, strays, strays_put hN hsig hk hs hp e (by simp [w])]
  | .neg e, w => by
    simp only [wf, Bool.and_eq_true] at w
    simp only [put, strays, strays_put hN hsig hk hs hp e (by simp [w])]
  | .ifexp t c f, w => by
    simp only [wf, Bool.and_eq_true] at w
    simp only [put, strays, strays_put hN hsig hk hs hp t (by simp [w]),
      strays_put hN hsig hk hs hp c (by simp [w]),
      strays_put hN hsig hk hs hp f (by simp [w])]
  | .bin o a b, w => by
    have wa : wf N a = true := by cases o <;> simp only [wf, Bool.and_eq_true] at w <;> simp [w]
    have wb : wf N b = true := by cases o <;> simp only [wf, Bool.and_eq_true] at w <;> simp [w]
    simp only [put, strays, strays_put hN hsig hk hs hp a wa, strays_put hN hsig hk hs hp b wb]
  | .getOrDefault _ _ sg self obj dflt, w => by
    simp only [wf, Bool.and_eq_true] at w
    simp only [put, strays, strays_put hN hsig hk hs hp self (by simp [w]),
      strays_put hN hsig hk hs hp obj (by simp [w]),
      strays_put hN hsig hk hs hp dflt (by simp [w])]
  | .optItems _ _ _ _ obj _, w => by
    simp only [wf, Bool.and_eq_true] at w
    simp only [put, strays, strays_put hN hsig hk hs hp obj (by simp [w])]
  | .optDict _ _ _ obj _, w => by
    simp only [wf, Bool.and_eq_true] at w
    simp only [put, strays, strays_put hN hsig hk hs hp obj (by simp [w])]
  | .tap _ obj _ _, w => by
    simp only [wf, Bool.and_eq_true] at w
    simp only [put, strays, strays_put hN hsig hk hs hp obj (by simp [w])]
  | .setitem _ _ _, w => by simp [wf] at w
  | .setattr o k v, w => by
    simp only [wf, Bool.and_eq_true] at w
    simp only [put, strays, strays_put hN hsig hk hs hp o (by simp [w]),
      strays_put hN hsig hk hs hp k (by simp [w]),
      strays_put hN hsig hk hs hp v (by simp [w])]
  | .pop o k, w => by
    simp only [wf, Bool.and_eq_true] at w
    simp only [put, strays, strays_put hN hsig hk hs hp o (by simp [w]),
      strays_put hN hsig hk hs hp k (by simp [w])]
  | .delattr o k, w => by
    simp only [wf, Bool.and_eq_true] at w
    simp only [put, strays, strays_put hN hsig hk hs hp o (by simp [w]),
      strays_put hN hsig hk hs hp k (by simp [w])]
  | .comp _ item value _ iter _ cond _, w => by
    simp only [wf, Bool.and_eq_true] at w
    simp only [put, strays, strays_put hN hsig hk hs hp item (by simp [w]),
      strays_put hN hsig hk hs hp value (by simp [w]),
      strays_put hN hsig hk hs hp iter (by simp [w]),
      strays_put hN hsig hk hs hp cond (by simp [w])]
  | .call f args _, w => by
    simp only [wf, Bool.and_eq_true] at w
    simp only [put, strays, strays_put hN hsig hk hs hp f (by simp [w]),
      straysAny_put hN hsig hk hs hp args (by simp [w])]
  | .boolop _ es, w => by
    simp only [wf, Bool.and_eq_true] at w
    simp only [put, strays, straysAny_put hN hsig hk hs hp es (by simp [w])]
  | .eqs es, w => by
    simp only [wf, Bool.and_eq_true] at w
    simp only [put, strays, straysAny_put hN hsig hk hs hp es (by simp [w])]
  | .display _ items, w => by
    simp only [wf, Bool.and_eq_true] at w
    simp only [put, strays, straysAny_put hN hsig hk hs hp items (by simp [w])]

theorem straysAny_put (hN : PyNames printable N) (hsig : SigOk N sig) (hk : ∀ l, sig ≠ .const l)
    (hs : strays N (paths.map keyCode) sig = false) (hp : ∀ p ∈ paths, ∀ l ∈ p, simpleLit l = true) :
    ∀ es : List (PyExpr Val), wfAll N es = true →
    straysAny N (paths.map keyCode) (putAll N key sig es) = straysAny N (key :: paths.map keyCode) es
  | [], _ => rfl
  | e :: es, w => by
    simp only [wfAll, Bool.and_eq_true] at w
    simp only [putAll, straysAny, strays_put hN hsig hk hs hp e w.1, straysAny_put hN hsig hk hs hp es w.2]

end

end

theorem strays_sig (many : Bool) (j : Nat) (keys : List (PyExpr Val)) : strays N keys (sigExpr many j) = false := by
  have h : ((varSignature == varRow) = false) := by decide +kernel
  cases many <;>
    simp only [sigExpr, if_true, Bool.false_eq_true, if_false, strays, h, Bool.false_and, Bool.or_self, Bool.and_false]

theorem sig_const (many : Bool) (j : Nat) (l : Lit Val) : sigExpr many j ≠ .const l := by
  cases many <;> simp [sigExpr]

/-- After all replacements the row is mentioned just if it was used outside of the keys. -/
theorem mentions_putKeys (hN : PyNames printable N) (many : Bool) : ∀ (paths : List (List (Lit Val))) (j : Nat)
    (e : PyExpr Val), (∀ p ∈ paths, ∀ l ∈ p, simpleLit l = true) → wf N e = true →
    mentions varRow (putKeys N many j (paths.map keyCode) e) = strays N (paths.map keyCode) e
  | [], _, e, _, _ => (strays_nil e).symm
  | p :: paths, j, e, hp, hw => by
    rw [List.map_cons, putKeys, mentions_putKeys hN many paths (j + 1) _ (fun q hq => hp q (by simp [hq]))
      (wf_put (sigOk hN many j) e hw)]
    exact strays_put hN (sigOk hN many j) (sig_const many j) (strays_sig many j _) (fun q hq => hp q (by simp [hq]))
      e hw

end

end Verif.GroupKeys
