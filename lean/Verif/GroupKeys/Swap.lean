import Verif.GroupKeys.Spec
import Verif.Text.LexCode
import Verif.Text.ParseCode
import Verif.Expr.Once

/-!
# Group keys: replacing text and replacing expressions
-/

set_option autoImplicit false

namespace Verif.GroupKeys

open Verif.Expr Verif.Text

/-! ## Replacing in texts -/

theorem replaceFrom_drop (pat rep : List Char) : ∀ (n : Nat) (cs : List Char),
    replaceFrom pat rep n cs = replaceFrom pat rep 0 (cs.drop n)
  | 0, cs => by simp
  | n + 1, [] => by simp [replaceFrom]
  | n + 1, c :: cs => by
    simp only [replaceFrom, List.drop_succ_cons]
    exact replaceFrom_drop pat rep n cs

/-- At an occurrence. -/
theorem replace_at {pat : List Char} (rep cs : List Char) (h : pat ≠ []) :
    replaceFrom pat rep 0 (pat ++ cs) = rep ++ replaceFrom pat rep 0 cs := by
  cases pat with
  | nil => exact absurd rfl h
  | cons p ps =>
    simp only [List.cons_append, replaceFrom]
    rw [if_pos (by simp [List.isPrefixOf_iff_prefix])]
    rw [replaceFrom_drop]
    simp

/-- Before anything else. -/
theorem replace_skip1 {pat rep cs : List Char} {c : Char} (h : ¬ pat <+: c :: cs) :
    replaceFrom pat rep 0 (c :: cs) = c :: replaceFrom pat rep 0 cs := by
  rw [replaceFrom, if_neg (by rw [List.isPrefixOf_iff_prefix]; exact h)]

theorem replace_skip {pat rep : List Char} : ∀ (t cs : List Char),
    (∀ u v, t = u ++ v → v ≠ [] → ¬ pat <+: v ++ cs) →
    replaceFrom pat rep 0 (t ++ cs) = t ++ replaceFrom pat rep 0 cs
  | [], cs, _ => by simp
  | c :: t, cs, h => by
    simp only [List.cons_append]
    have h0 : ¬ pat <+: c :: (t ++ cs) := h [] (c :: t) rfl (by simp)
    rw [replace_skip1 h0, replace_skip t cs (fun u v e hv => h (c :: u) v (by simp [e]) hv)]

/-- The characters of `row_`. -/
def rowChars : List Char := ['r', 'o', 'w', '_']

/-- Texts before which a name ends. -/
def rEnd : List Char → Bool
  | [] => true
  | c :: _ => !idChar c

/-- The end of a piece of text. -/
def noTail (t : List Char) : Bool := (t.getLast?.map (fun c => !idChar c)).getD true

theorem row_short {v cs : List Char} (h : rowChars <+: v ++ cs) (hv : v ≠ []) :
    rowChars <+: v ∨ (noTail v = false ∧ rEnd cs = false) := by
  obtain ⟨r, hr⟩ := h
  simp only [rowChars, List.cons_append, List.nil_append] at hr ⊢
  match v, hv, hr with
  | [a], _, hr =>
    simp only [List.cons_append, List.nil_append, List.cons.injEq] at hr
    obtain ⟨rfl, rfl⟩ := hr
    exact Or.inr ⟨by decide, rfl⟩
  | [a, b], _, hr =>
    simp only [List.cons_append, List.nil_append, List.cons.injEq] at hr
    obtain ⟨rfl, rfl, rfl⟩ := hr
    exact Or.inr ⟨by decide, rfl⟩
  | [a, b, c], _, hr =>
    simp only [List.cons_append, List.nil_append, List.cons.injEq] at hr
    obtain ⟨rfl, rfl, rfl, rfl⟩ := hr
    exact Or.inr ⟨by decide, rfl⟩
  | a :: b :: c :: d :: l, _, hr =>
    simp only [List.cons_append, List.cons.injEq] at hr
    obtain ⟨rfl, rfl, rfl, rfl, rfl⟩ := hr
    exact Or.inl ⟨l, rfl⟩

/-- `row_` is in the text. -/
theorem isIn_iff {a b : String} : isIn a b = true ↔ ∃ u v, b.toList = u ++ v ∧ a.toList <+: v := by
  simp only [isIn, List.any_eq_true, List.mem_range, List.isPrefixOf_iff_prefix]
  constructor
  · rintro ⟨n, _, h⟩
    exact ⟨b.toList.take n, b.toList.drop n, (List.take_append_drop n _).symm, h⟩
  · rintro ⟨u, v, h, hp⟩
    refine ⟨u.length, ?_, ?_⟩
    · rw [h, List.length_append]; omega
    · rw [h]; simpa using hp

/-- Text without `row_` at the end of which a name ends, or before text which ends a name. -/
theorem skip_clean {S rep : List Char} {t : String} {cs : List Char} (hc : isIn varRow t = false)
    (he : noTail t.toList = true ∨ rEnd cs = true) :
    replaceFrom (rowChars ++ S) rep 0 (t.toList ++ cs) = t.toList ++ replaceFrom (rowChars ++ S) rep 0 cs := by
  apply replace_skip
  intro u v htv hv hp
  have h1 : rowChars <+: v ++ cs := List.IsPrefix.trans (List.prefix_append _ _) hp
  rcases row_short h1 hv with h2 | ⟨h2, h3⟩
  · have : isIn varRow t = true := isIn_iff.2 ⟨u, v, htv, h2⟩
    rw [hc] at this
    cases this
  · rcases he with he | he
    · have : noTail v = noTail t.toList := by
        unfold noTail
        rw [htv, List.getLast?_append]
        cases hl : v.getLast? with
        | none => rw [List.getLast?_eq_none_iff] at hl; exact absurd hl hv
        | some c => rfl
      rw [this, he] at h2
      cases h2
    · rw [he] at h3
      cases h3

/-- A fixed piece of text. -/
def skipLit (s : String) : Bool := !isIn varRow s && noTail s.toList

/-- A fixed piece of text before which names and lookups end. -/
def sepLit (s : String) : Bool :=
  match s.toList with
  | [] => false
  | c :: _ => !idChar c && c != '['

/-- Occurrences of the key in `s` become occurrences of the replacement in `s'`, before texts which end a name; with
`b`, before texts which do not begin a lookup. -/
def Swaps (S rep : List Char) (b : Bool) (s s' : String) : Prop :=
  ∀ cs, rEnd cs = true → (b = true → cs.head? ≠ some '[') →
    replaceFrom (rowChars ++ S) rep 0 (s.toList ++ cs) = s'.toList ++ replaceFrom (rowChars ++ S) rep 0 cs

section
variable {S rep : List Char}

theorem skip_piece (t : String) (cs : List Char) (h : skipLit t = true := by decide +kernel) :
    replaceFrom (rowChars ++ S) rep 0 (t.toList ++ cs) = t.toList ++ replaceFrom (rowChars ++ S) rep 0 cs := by
  simp only [skipLit, Bool.and_eq_true, Bool.not_eq_true'] at h
  exact skip_clean h.1 (Or.inl h.2)

theorem swaps_clean {s : String} (h : isIn varRow s = false) (b : Bool) : Swaps S rep b s s := fun _ h1 _ =>
  skip_clean h (Or.inr h1)

theorem sepLit_ends {s : String} (h : sepLit s = true) (cs : List Char) :
    rEnd (s.toList ++ cs) = true ∧ (s.toList ++ cs).head? ≠ some '[' := by
  unfold sepLit at h
  cases hs : s.toList with
  | nil => rw [hs] at h; cases h
  | cons c l =>
    rw [hs] at h
    simp only [Bool.and_eq_true, bne_iff_ne, ne_eq] at h
    simp only [List.cons_append, rEnd, List.head?_cons, Option.some.injEq]
    exact ⟨h.1, by simpa using h.2⟩

theorem Swaps.weaken {b : Bool} {s s' : String} (h : Swaps S rep b s s') : Swaps S rep true s s' :=
  fun cs h1 h2 => h cs h1 (fun _ => h2 rfl)

theorem Swaps.before {b : Bool} {s s' : String} (h : Swaps S rep b s s') (r : String) (cs : List Char)
    (hr : sepLit r = true := by decide +kernel) :
    replaceFrom (rowChars ++ S) rep 0 (s.toList ++ (r.toList ++ cs)) =
      s'.toList ++ replaceFrom (rowChars ++ S) rep 0 (r.toList ++ cs) :=
  h _ (sepLit_ends hr cs).1 (fun _ => (sepLit_ends hr cs).2)

theorem Swaps.andThen {b : Bool} {s s' : String} (h : Swaps S rep b s s') (r : String) (cs : List Char)
    (hr : sepLit r = true := by decide +kernel) (hs : skipLit r = true := by decide +kernel) :
    replaceFrom (rowChars ++ S) rep 0 (s.toList ++ (r.toList ++ cs)) =
      s'.toList ++ (r.toList ++ replaceFrom (rowChars ++ S) rep 0 cs) := by
  rw [h.before r cs hr, skip_piece r cs hs]

/-- Several texts. -/
inductive AllSwap (S rep : List Char) : List String → List String → Prop
  | nil : AllSwap S rep [] []
  | cons {s s' : String} {ss ss' : List String} : Swaps S rep true s s' → AllSwap S rep ss ss' →
      AllSwap S rep (s :: ss) (s' :: ss')

theorem AllSwap.length {as bs : List String} (h : AllSwap S rep as bs) : as.length = bs.length := by
  induction h with
  | nil => rfl
  | cons _ _ ih => simp [ih]

theorem AllSwap.append {as bs as' bs' : List String} (h1 : AllSwap S rep as as') (h2 : AllSwap S rep bs bs') :
    AllSwap S rep (as ++ bs) (as' ++ bs') := by
  induction h1 with
  | nil => exact h2
  | cons h _ ih => exact .cons h ih

theorem AllSwap.take {as bs : List String} (h : AllSwap S rep as bs) : ∀ n : Nat,
    AllSwap S rep (as.take n) (bs.take n) := by
  induction h with
  | nil => intro n; simp only [List.take_nil]; exact .nil
  | cons h1 h2 ih =>
    intro n
    cases n with
    | zero => exact .nil
    | succ n => exact .cons h1 (ih n)

theorem AllSwap.drop {as bs : List String} (h : AllSwap S rep as bs) : ∀ n : Nat,
    AllSwap S rep (as.drop n) (bs.drop n) := by
  induction h with
  | nil => intro n; simp only [List.drop_nil]; exact .nil
  | cons h1 h2 ih =>
    intro n
    cases n with
    | zero => exact .cons h1 h2
    | succ n => exact ih n

theorem AllSwap.join {sep : String} {ss ss' : List String} (h : AllSwap S rep ss ss')
    (hr : sepLit sep = true := by decide +kernel) (hs : skipLit sep = true := by decide +kernel) :
    Swaps S rep true (join sep ss) (join sep ss') := by
  induction h with
  | nil => exact swaps_clean (show isIn varRow "" = false by decide +kernel) _
  | @cons s s' ss ss' h ht ih =>
    cases ht with
    | nil => exact h
    | @cons t t' ts ts' h' ht' =>
      intro cs h1 h2
      simp only [Expr.join, String.toList_append, List.append_assoc]
      rw [h.andThen sep _ hr hs, ih cs h1 h2]

theorem AllSwap.kw {as as' : List String} (h : AllSwap S rep as as') : ∀ kw : List String,
    kw.all clean = true →
    AllSwap S rep (List.zipWith (fun k t => k ++ "=" ++ t) kw as) (List.zipWith (fun k t => k ++ "=" ++ t) kw as') := by
  induction h with
  | nil => intro kw _; simp only [List.zipWith_nil_right]; exact .nil
  | @cons s s' ss ss' h1 h2 ih =>
    intro kw hk
    cases kw with
    | nil => exact .nil
    | cons k kw =>
      simp only [List.all_cons, Bool.and_eq_true, clean, Bool.not_eq_true'] at hk
      refine .cons ?_ (ih kw hk.2)
      intro cs e1 e2
      simp only [String.toList_append, List.append_assoc]
      rw [(swaps_clean hk.1 true).andThen "=" _, h1 cs e1 e2]

theorem AllSwap.withKw {as as' : List String} (h : AllSwap S rep as as') {kw : List String}
    (hk : kw.all clean = true) : AllSwap S rep (withKw kw as) (withKw kw as') := by
  simp only [Expr.withKw]
  rw [← h.length]
  exact (h.take _).append ((h.drop _).kw kw hk)

theorem AllSwap.pairs : ∀ {as as' : List String}, AllSwap S rep as as' →
    AllSwap S rep (pairTexts as) (pairTexts as')
  | _, _, .nil => .nil
  | _, _, .cons _ .nil => .nil
  | _, _, .cons h1 (.cons h2 h3) => by
    refine .cons ?_ (AllSwap.pairs h3)
    intro cs e1 e2
    simp only [String.toList_append, List.append_assoc]
    rw [h1.andThen ":" _, h2 cs e1 e2]

theorem AllSwap.names : ∀ {as : List String}, as.all clean = true → AllSwap S rep as as
  | [], _ => .nil
  | a :: as, h => by
    simp only [List.all_cons, Bool.and_eq_true, clean, Bool.not_eq_true'] at h
    exact .cons (swaps_clean h.1 true) (AllSwap.names h.2)

/-- A text in brackets. -/
theorem swaps_in {s s' : String} {b : Bool} (h : Swaps S rep b s s') (l r : String) (b' : Bool)
    (hl : skipLit l = true := by decide +kernel) (hr : sepLit r = true := by decide +kernel)
    (hr' : skipLit r = true := by decide +kernel) : Swaps S rep b' (l ++ s ++ r) (l ++ s' ++ r) := by
  intro cs _ _
  simp only [String.toList_append, List.append_assoc]
  rw [skip_piece l _ hl, h.andThen r _ hr hr']

end

end Verif.GroupKeys
