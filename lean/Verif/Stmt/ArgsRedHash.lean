import Verif.Stmt.ArgsRed

/-!
# Stmt: reduces with functions and additional arguments which are compared by the same text

Source: `/repo/src/convtools/aggregations.py` lines 23-42, 116-176, 643-648, 788-914.
-/

set_option autoImplicit false

namespace Verif.Stmt

open Verif.Text Verif.Agg Verif.Reducers

variable {V E : Type}

/-- The reduces are read as the same expressions. -/
def ARed.SameTrees (u v : ARed V E) : Prop := u.cond = v.cond ∧ u.callee = v.callee ∧ u.trees = v.trees ∧ u.ia = v.ia

/-- Codes with the same text between commas are read as the same expressions. -/
theorem commas_det {ss ss' : List String} {tss tss' : List (List Tok)} {as as' : List Ast} (h : CodesOf ss tss as)
    (h' : CodesOf ss' tss' as') (hn : ss ≠ []) (hn' : ss' ≠ []) (he : (commas ss).toList = (commas ss').toList) : as = as' := by
  obtain ⟨ts, c⟩ := tuple_code h hn
  obtain ⟨ts', c'⟩ := tuple_code h' hn'
  have e : (tupleText ss).toList = (tupleText ss').toList := by
    simp only [tupleText, String.toList_append, he]
  rw [e] at c
  have := code_det c c'
  simpa using this

theorem CodesOf.length : ∀ {ss : List String} {tss : List (List Tok)} {as : List Ast}, CodesOf ss tss as → ss.length = as.length
  | _, _, _, .nil => rfl
  | _, _, _, .cons _ hs => by simp [hs.length]

/-- The text of a call (base.py 1372-1383), as characters. -/
theorem function_text (g a : String) (s : String) (ss : List String) :
    ((Callee.function g).text (a :: s :: ss)).toList = g.toList ++ '(' :: (a.toList ++ ',' :: ((commas (s :: ss)).toList ++ [')'])) := by
  simp [Callee.text, commas, String.toList_append]

/-- The first statement without the variable (aggregations.py 123-154). -/
def ARed.firstH (u : ARed V E) : List Char :=
  " = ".toList ++ (match u.initial with
    | none =>
      match u.more with
      | [] => u.code.toList
      | m :: more => (tupleText (u.code :: m :: more)).toList
    | some i => (u.callee.text (i :: u.codes)).toList)

/-- The other one (aggregations.py 156-176). -/
def ARed.secondH (u : ARed V E) : List Char := " = ".toList ++ (u.callee.text ("" :: u.codes)).toList

theorem args_hash {u : ARed V E} {g : String} (hg : u.callee = .function g) (hgn : isName g = true) {i : Nat}
    (hgf : ¬ (placeText false i).toList <:+: g.toList) (h : u.Reads) (hf : u.Free (placeText false i)) :
    splitNl (codeHash (textOf false i u.text)) = hashRaw (u.cond.map String.toList) [u.firstH] [u.secondH] := by
  have ho := placeText_length false i
  have hs := placeText_sep false i
  have hne : (placeText false i).toList ≠ [] := by
    intro h0
    rw [h0] at ho
    simp at ho
  have hv : '\n' ∉ (placeText false i).toList := fun hm => by have := hs _ hm; revert this; decide
  have hk : u.callee.Ok (u.more.length + 2) (placeText false i).toList := by
    rw [hg]
    exact function_ok hne hs hgn hgf (by simp)
  obtain ⟨tss, hx⟩ := h.codes
  have hgl : '\n' ∉ g.toList := lex_oneLine _ .start rfl (Lx.of_reads (reads_name hgn true)).whole
  have hcl : '\n' ∉ (tupleText u.codes).toList := by
    obtain ⟨_, c⟩ := tuple_code hx (by simp [ARed.codes])
    exact lex_oneLine _ .start rfl c.lx.whole
  have hxn : '\n' ∉ (commas u.codes).toList := by
    intro hm
    refine hcl ?_
    simp only [tupleText, String.toList_append, List.mem_append]
    exact .inl (.inr hm)
  have hcall : ∀ a : String, '\n' ∉ a.toList → '\n' ∉ (u.callee.text (a :: u.codes)).toList := by
    intro a ha
    rw [hg, ARed.codes, function_text]
    simp only [List.mem_append, List.mem_cons, List.not_mem_nil, or_false, not_or]
    exact ⟨hgl, by decide, ha, by decide, hxn, by decide⟩
  have hin : ∀ t, u.initial = some t → '\n' ∉ t.toList := by
    intro t ht
    have hi := h.initial
    rw [ht] at hi
    cases hia : u.ia with
    | none => rw [hia] at hi; exact hi.elim
    | some a =>
      rw [hia] at hi
      obtain ⟨it, hi⟩ := hi
      exact lex_oneLine _ .start rfl hi.lx.whole
  have hcn : ∀ c, u.cond = some c → '\n' ∉ c.toList := by
    intro c hc
    have hi := h.cond
    rw [hc] at hi
    cases hia : u.condS with
    | none => rw [hia] at hi; exact hi.elim
    | some d =>
      rw [hia] at hi
      exact lex_oneLine _ .start rfl hi.1.whole
  have hF : '\n' ∉ u.firstH := by
    simp only [ARed.firstH, List.mem_append, not_or]
    refine ⟨by decide, ?_⟩
    cases hi : u.initial with
    | none =>
      simp only
      simp only [ARed.codes] at hxn hcl
      cases hm : u.more with
      | nil => rw [hm] at hxn; exact hxn
      | cons c cs => rw [hm] at hcl; exact hcl
    | some t => exact hcall t (hin t hi)
  have hS : '\n' ∉ u.secondH := by
    simp only [ARed.secondH, List.mem_append, not_or]
    exact ⟨by decide, hcall "" (by decide)⟩
  have eI : (u.initText (placeText false i)).toList = (placeText false i).toList ++ u.firstH := by
    simp only [ARed.initText, ARed.firstH, String.toList_append, List.append_assoc]
    cases u.initial with
    | some t => rfl
    | none => cases u.more <;> rfl
  have eT : (u.twoText (placeText false i)).toList = (placeText false i).toList ++ (" = ".toList ++
      (u.callee.text (placeText false i :: u.codes)).toList) := by
    simp only [ARed.twoText, ARed.codes, String.toList_append, List.append_assoc]
  have hvv : replaceAll (placeText false i).toList [] (placeText false i).toList = "".toList := by
    have := replaceAll_hit (new := []) hne []
    simpa [replaceAll_nil] using this
  have hc : Renamed (placeText false i).toList [] u.codes u.codes := renamed_free hf.codes
  refine hash_split (b := textOf false i u.text) (xs := [(u.initText (placeText false i)).toList])
    (ys := [(u.twoText (placeText false i)).toList]) ho hs rfl ?_ ?_ (by simp) (by simp) ?_ ?_ ?_ ?_ ?_ ?_ ?_
  · simp [textOf, ARed.text, ARed.block, joinLines]
  · simp [textOf, ARed.text, ARed.block, joinLines]
  · intro l hl
    rw [List.mem_singleton.1 hl, eI]
    refine ⟨?_, by simp [hne]⟩
    rw [List.mem_append, not_or]
    exact ⟨hv, hF⟩
  · intro l hl
    rw [List.mem_singleton.1 hl, eT]
    refine ⟨?_, by simp [hne]⟩
    simp only [List.mem_append, not_or]
    exact ⟨hv, by decide, hcall _ hv⟩
  · intro c hc
    simp only [textOf, ARed.text, ARed.block, Option.map_eq_some_iff] at hc
    obtain ⟨d, hd, rfl⟩ := hc
    exact ⟨hcn d hd, hf.cond d hd⟩
  · simp only [List.map_cons, List.map_nil, List.cons.injEq, and_true]
    rw [eI]
    show replaceAll (placeText false i).toList [] _ = _
    simp only [ARed.firstH]
    rw [replace_assign hne hs]
    cases hi : u.initial with
    | none =>
      simp only
      cases hm : u.more with
      | nil => simp only [replaceAll_free (hf.codes u.code (by simp [ARed.codes])), List.nil_append]
      | cons c cs =>
        simp only [ARed.codes, hm] at hc
        simp only [tuple_renamed hne hs hc, List.nil_append]
    | some t =>
      have h1 := hk.renamed (ss := t :: u.codes) rfl (.cons (replaceAll_free (hf.initial t hi)) hc)
      simp only [h1, List.nil_append]
  · simp only [List.map_cons, List.map_nil, List.cons.injEq, and_true]
    rw [eT]
    show replaceAll (placeText false i).toList [] _ = _
    have h2 := hk.renamed (ss := placeText false i :: u.codes) rfl (.cons (s' := "") hvv hc)
    simp only [ARed.secondH]
    rw [replace_assign hne hs, h2, List.nil_append]
  · intro l hl
    rw [List.mem_singleton.1 hl]
    exact hF
  · intro l hl
    rw [List.mem_singleton.1 hl]
    exact hS

/-- In `group_by`, reduces with functions of the user which are compared by the same text call the same function with the
same arguments and the same `initial`, under the same condition. -/
theorem args_same {u v : ARed V E} {g g' : String} (hg : u.callee = .function g) (hg' : v.callee = .function g')
    (hgn : isName g = true) (hgn' : isName g' = true) {i j : Nat} (hgf : ¬ (placeText false i).toList <:+: g.toList)
    (hgf' : ¬ (placeText false j).toList <:+: g'.toList) (hu : u.Reads) (hv : v.Reads) (fu : u.Free (placeText false i))
    (fv : v.Free (placeText false j)) (h : u.hash false i = v.hash false j) : u.SameTrees v := by
  have he : codeHash (textOf false i u.text) = codeHash (textOf false j v.text) := by
    have := congrArg String.toList h
    simpa [ARed.hash] using this
  have h1 := args_hash hg hgn hgf hu fu
  rw [he, args_hash hg' hgn' hgf' hv fv] at h1
  have hpos : g.toList ≠ [] ∧ g'.toList ≠ [] := by
    constructor
    · intro h0
      rw [← String.ofList_toList (s := g), h0] at hgn
      revert hgn
      decide +kernel
    · intro h0
      rw [← String.ofList_toList (s := g'), h0] at hgn'
      revert hgn'
      decide +kernel
  rcases hashRaw_inj (by simp) (by simp) h1 with ⟨hc, hI, hT⟩ | hm | hm
  · have hcond : u.cond = v.cond := by
      cases hcu : u.cond <;> cases hcv : v.cond <;> rw [hcu, hcv] at hc <;> simp_all [String.toList_inj]
    simp only [List.cons.injEq, and_true, ARed.secondH, List.append_cancel_left_eq, hg, hg', ARed.codes, function_text] at hT
    obtain ⟨hgg, hx⟩ := before_char (name_noPar hgn') (name_noPar hgn) hT
    have hx : (commas v.codes).toList = (commas u.codes).toList := by simpa [ARed.codes] using hx
    have hgg := String.toList_inj.1 hgg
    subst hgg
    obtain ⟨_, cu⟩ := hu.codes
    obtain ⟨_, cv⟩ := hv.codes
    have ht : u.trees = v.trees := commas_det cu cv (by simp [ARed.codes]) (by simp [ARed.codes]) hx.symm
    refine ⟨hcond, hg.trans hg'.symm, ht, ?_⟩
    have hlen : ∀ w : ARed V E, (match w.more with
        | [] => w.code.toList
        | m :: more => (tupleText (w.code :: m :: more)).toList).length ≤ (commas w.codes).toList.length + 3 := by
      intro w
      cases hm : w.more with
      | nil => simp [ARed.codes, hm, commas]
      | cons c cs =>
        simp only [tupleText, String.toList_append, List.length_append, ARed.codes, hm]
        rw [show "(".toList = ['('] by decide +kernel, show ",)".toList = [',', ')'] by decide +kernel]
        simp only [List.length_cons, List.length_nil]
        omega
    simp only [List.cons.injEq, and_true, ARed.firstH, List.append_cancel_left_eq] at hI
    have ru := hu.initial
    have rv := hv.initial
    have hp := List.length_pos_iff.2 hpos.1
    cases hiu : u.initial with
    | none =>
      cases hiv : v.initial with
      | none =>
        rw [hiu] at ru
        rw [hiv] at rv
        cases hua : u.ia <;> cases hva : v.ia <;> rw [hua] at ru <;> rw [hva] at rv <;> first | rfl | exact ru.elim | exact rv.elim
      | some t =>
        rw [hiu, hiv] at hI
        simp only [hg', ARed.codes, function_text] at hI
        have h2 := congrArg List.length hI
        have h3 := hlen u
        rw [← hx] at h3
        simp only [List.length_append, List.length_cons, List.length_nil] at h2
        simp only [ARed.codes] at h3
        omega
    | some s =>
      cases hiv : v.initial with
      | none =>
        rw [hiu, hiv] at hI
        simp only [hg, ARed.codes, function_text] at hI
        have h2 := congrArg List.length hI
        have h3 := hlen v
        rw [hx] at h3
        simp only [List.length_append, List.length_cons, List.length_nil] at h2
        simp only [ARed.codes] at h3
        omega
      | some t =>
        rw [hiu, hiv] at hI
        simp only [ARed.codes] at hx
        simp only [hg, hg', ARed.codes, function_text, hx, List.append_cancel_left_eq, List.cons.injEq, true_and,
          List.append_cancel_right_eq, String.toList_inj] at hI
        rw [hiu] at ru
        rw [hiv, hI] at rv
        cases hua : u.ia <;> cases hva : v.ia <;> rw [hua] at ru <;> rw [hva] at rv <;> first | exact ru.elim | exact rv.elim | skip
        obtain ⟨_, c1⟩ := ru
        obtain ⟨_, c2⟩ := rv
        exact congrArg some (code_det c1 c2)
  · simp [ARed.firstH] at hm
  · simp [ARed.firstH] at hm

end Verif.Stmt
