import Verif.GroupKeys.Put

/-!
# Group keys: what is left after replacing
-/

set_option autoImplicit false

namespace Verif.GroupKeys

open Verif.Expr Verif.Text

section
variable {Val : Type} {printable : Char → Bool} {N : Names Val} {key sig : PyExpr Val} {S : List Char}

/-- What is put in place of a key. -/
structure SigOk (N : Names Val) (sig : PyExpr Val) : Prop where
  wf : wf N sig = true
  quiet : quiet N sig = true
  notInt : isInt sig = false
  notNeg : isNeg sig = false
  notChain : isChain sig = false

theorem isInt_put (h : SigOk N sig) (e : PyExpr Val) : isInt (put N key sig e) = isInt e := by
  cases e with
  | name n => simp only [put]; split <;> first | exact h.notInt | rfl
  | sub e i => simp only [put]; split <;> first | exact h.notInt | rfl
  | _ => rfl

theorem isNeg_put (h : SigOk N sig) (e : PyExpr Val) : isNeg (put N key sig e) = isNeg e := by
  cases e with
  | name n => simp only [put]; split <;> first | exact h.notNeg | rfl
  | sub e i => simp only [put]; split <;> first | exact h.notNeg | rfl
  | _ => rfl

theorem isChain_put (h : SigOk N sig) : ∀ (e : PyExpr Val), isChain e = false → isChain (put N key sig e) = false
  | .name n, hc => by
    simp only [put]
    split
    · exact h.notChain
    · exact hc
  | .sub e i, hc => by
    simp only [put]
    split
    · exact h.notChain
    · exact isChain_put h e hc
  | .const _, _ => rfl
  | .getLabel _, _ => rfl
  | .addLabel _ _, _ => rfl
  | .attach _ _, _ => rfl
  | .dot _ _, _ => rfl
  | .getattr _ _, _ => rfl
  | .call _ _ _, _ => rfl
  | .boolop _ _, _ => rfl
  | .eqs _, _ => rfl
  | .not _, _ => rfl
  | .bin _ _ _, _ => rfl
  | .neg _, _ => rfl
  | .ifexp _ _ _, _ => rfl
  | .comp _ _ _ _ _ _ _ _, _ => rfl
  | .display _ _, _ => rfl
  | .getOrDefault _ _ _ _ _ _, _ => rfl
  | .optItems _ _ _ _ _ _, _ => rfl
  | .optDict _ _ _ _ _, _ => rfl
  | .tap _ _ _ _, _ => rfl
  | .setitem _ _ _, _ => rfl
  | .setattr _ _ _, _ => rfl
  | .pop _ _, _ => rfl
  | .delattr _ _, _ => rfl
  | .bad _, _ => rfl
  | .given _ _, _ => rfl

theorem putAll_length (es : List (PyExpr Val)) : (putAll N key sig es).length = es.length := by
  induction es with
  | nil => rfl
  | cons e es ih => simp [putAll, ih]

theorem putAll_isEmpty (es : List (PyExpr Val)) : (putAll N key sig es).isEmpty = es.isEmpty := by
  cases es <;> rfl

mutual

theorem wf_put (hs : SigOk N sig) : ∀ (e : PyExpr Val), wf N e = true → wf N (put N key sig e) = true
  | .name n, h => by
    simp only [put]
    split
    · exact hs.wf
    · exact h
  | .sub e i, h => by
    simp only [put]
    split
    · exact hs.wf
    · simp only [wf, Bool.and_eq_true, isNeg_put hs] at h ⊢
      exact ⟨⟨h.1.1, wf_put hs e h.1.2⟩, wf_put hs i h.2⟩
  | .const _, h => h
  | .getLabel _, h => h
  | .addLabel l e, h => by
    simp only [put, wf, Bool.and_eq_true] at h ⊢
    exact ⟨h.1, wf_put hs e h.2⟩
  | .attach a b, h => by
    simp only [put, wf, Bool.and_eq_true] at h ⊢
    exact ⟨wf_put hs a h.1, wf_put hs b h.2⟩
  | .dot e a, h => by
    simp only [put, wf, Bool.and_eq_true, isInt_put hs] at h ⊢
    exact ⟨h.1, wf_put hs e h.2⟩
  | .getattr a b, h => by
    simp only [put, wf, Bool.and_eq_true] at h ⊢
    exact ⟨wf_put hs a h.1, wf_put hs b h.2⟩
  | .call f args kw, h => by
    simp only [put, wf, Bool.and_eq_true, isNeg_put hs, putAll_length] at h ⊢
    exact ⟨⟨h.1.1, wf_put hs f h.1.2⟩, wf_putAll hs args h.2⟩
  | .boolop _ es, h => by
    simp only [put, wf, Bool.and_eq_true, putAll_length] at h ⊢
    exact ⟨h.1, wf_putAll hs es h.2⟩
  | .eqs es, h => by
    simp only [put, wf, Bool.and_eq_true, putAll_length] at h ⊢
    exact ⟨h.1, wf_putAll hs es h.2⟩
  | .not e, h => by
    simp only [put, wf] at h ⊢
    exact wf_put hs e h
  | .bin o a b, h => by
    cases o <;> simp only [put, wf, Bool.and_eq_true, isNeg_put hs] at h ⊢
    case index => exact ⟨⟨h.1.1, wf_put hs a h.1.2⟩, wf_put hs b h.2⟩
    all_goals exact ⟨wf_put hs a h.1, wf_put hs b h.2⟩
  | .neg e, h => by
    simp only [put, wf] at h ⊢
    exact wf_put hs e h
  | .ifexp t c f, h => by
    simp only [put, wf, Bool.and_eq_true] at h ⊢
    exact ⟨⟨wf_put hs t h.1.1, wf_put hs c h.1.2⟩, wf_put hs f h.2⟩
  | .comp k item value var iter hasCond cond sort, h => by
    simp only [put, wf, Bool.and_eq_true] at h ⊢
    obtain ⟨⟨⟨⟨h0, h1⟩, h2⟩, h3⟩, h4⟩ := h
    exact ⟨⟨⟨⟨h0, wf_put hs item h1⟩, wf_put hs value h2⟩, wf_put hs iter h3⟩, wf_put hs cond h4⟩
  | .display k items, h => by
    simp only [put, wf, Bool.and_eq_true, putAll_length, putAll_isEmpty] at h ⊢
    exact ⟨h.1, wf_putAll hs items h.2⟩
  | .getOrDefault _ _ _ self obj dflt, h => by
    simp only [put, wf, Bool.and_eq_true] at h ⊢
    exact ⟨⟨⟨h.1.1.1, wf_put hs self h.1.1.2⟩, wf_put hs obj h.1.2⟩, wf_put hs dflt h.2⟩
  | .optItems _ _ _ _ obj _, h => by
    simp only [put, wf, Bool.and_eq_true] at h ⊢
    exact ⟨⟨h.1.1, wf_put hs obj h.1.2⟩, h.2⟩
  | .optDict _ _ _ obj _, h => by
    simp only [put, wf, Bool.and_eq_true] at h ⊢
    exact ⟨⟨h.1.1, wf_put hs obj h.1.2⟩, h.2⟩
  | .tap _ obj _ _, h => by
    simp only [put, wf, Bool.and_eq_true] at h ⊢
    exact ⟨⟨h.1.1, wf_put hs obj h.1.2⟩, h.2⟩
  | .setattr o k v, h => by
    simp only [put, wf, Bool.and_eq_true] at h ⊢
    exact ⟨⟨wf_put hs o h.1.1, wf_put hs k h.1.2⟩, wf_put hs v h.2⟩
  | .pop o k, h => by
    simp only [put, wf, Bool.and_eq_true, isInt_put hs] at h ⊢
    exact ⟨⟨h.1.1, wf_put hs o h.1.2⟩, wf_put hs k h.2⟩
  | .delattr o k, h => by
    simp only [put, wf, Bool.and_eq_true] at h ⊢
    exact ⟨wf_put hs o h.1, wf_put hs k h.2⟩
  | .setitem _ _ _, h => by simp [wf] at h
  | .bad _, h => by simp [wf] at h
  | .given _ _, h => by simp [wf] at h

theorem wf_putAll (hs : SigOk N sig) : ∀ (es : List (PyExpr Val)), wfAll N es = true →
    wfAll N (putAll N key sig es) = true
  | [], _ => rfl
  | e :: es, h => by
    simp only [putAll, wfAll, Bool.and_eq_true] at h ⊢
    exact ⟨wf_put hs e h.1, wf_putAll hs es h.2⟩

end

mutual

theorem quiet_put (hs : SigOk N sig) : ∀ (e : PyExpr Val), quiet N e = true → quiet N (put N key sig e) = true
  | .name n, h => by
    simp only [put]
    split
    · exact hs.quiet
    · exact h
  | .sub e i, h => by
    simp only [put]
    split
    · exact hs.quiet
    · simp only [quiet, Bool.and_eq_true] at h ⊢
      exact ⟨quiet_put hs e h.1, quiet_put hs i h.2⟩
  | .const _, h => h
  | .getLabel _, h => h
  | .addLabel l e, h => by
    simp only [put, quiet, Bool.and_eq_true] at h ⊢
    exact ⟨h.1, quiet_put hs e h.2⟩
  | .attach a b, h => by
    simp only [put, quiet, Bool.and_eq_true] at h ⊢
    exact ⟨quiet_put hs a h.1, quiet_put hs b h.2⟩
  | .dot e a, h => by
    simp only [put, quiet, Bool.and_eq_true] at h ⊢
    exact ⟨h.1, quiet_put hs e h.2⟩
  | .getattr a b, h => by
    simp only [put, quiet, Bool.and_eq_true] at h ⊢
    exact ⟨quiet_put hs a h.1, quiet_put hs b h.2⟩
  | .call f args kw, h => by
    simp only [put, quiet, Bool.and_eq_true] at h ⊢
    exact ⟨⟨h.1.1, quiet_put hs f h.1.2⟩, quiet_putAll hs args h.2⟩
  | .boolop _ es, h => by
    simp only [put, quiet] at h ⊢
    exact quiet_putAll hs es h
  | .eqs es, h => by
    simp only [put, quiet] at h ⊢
    exact quiet_putAll hs es h
  | .not e, h => by
    simp only [put, quiet] at h ⊢
    exact quiet_put hs e h
  | .bin o a b, h => by
    cases o <;> simp only [put, quiet, Bool.and_eq_true, Bool.not_eq_true'] at h ⊢
    case index => exact ⟨⟨isChain_put hs a h.1.1, quiet_put hs a h.1.2⟩, quiet_put hs b h.2⟩
    all_goals exact ⟨quiet_put hs a h.1, quiet_put hs b h.2⟩
  | .neg e, h => by
    simp only [put, quiet] at h ⊢
    exact quiet_put hs e h
  | .ifexp t c f, h => by
    simp only [put, quiet, Bool.and_eq_true] at h ⊢
    exact ⟨⟨quiet_put hs t h.1.1, quiet_put hs c h.1.2⟩, quiet_put hs f h.2⟩
  | .comp k item value var iter hasCond cond sort, h => by
    simp only [put, quiet, Bool.and_eq_true] at h ⊢
    obtain ⟨⟨⟨⟨⟨h0, h1⟩, h2⟩, h3⟩, h4⟩, h5⟩ := h
    exact ⟨⟨⟨⟨⟨h0, quiet_put hs item h1⟩, quiet_put hs value h2⟩, quiet_put hs iter h3⟩, quiet_put hs cond h4⟩, h5⟩
  | .display k items, h => by
    simp only [put, quiet] at h ⊢
    exact quiet_putAll hs items h
  | .getOrDefault _ _ _ self obj dflt, h => by
    simp only [put, quiet, Bool.and_eq_true] at h ⊢
    exact ⟨⟨⟨h.1.1.1, quiet_put hs self h.1.1.2⟩, quiet_put hs obj h.1.2⟩, quiet_put hs dflt h.2⟩
  | .optItems _ _ _ _ obj _, h => by
    simp only [put, quiet, Bool.and_eq_true] at h ⊢
    exact ⟨⟨h.1.1, quiet_put hs obj h.1.2⟩, h.2⟩
  | .optDict _ _ _ obj _, h => by
    simp only [put, quiet, Bool.and_eq_true] at h ⊢
    exact ⟨⟨h.1.1, quiet_put hs obj h.1.2⟩, h.2⟩
  | .tap _ obj _ _, h => by
    simp only [put, quiet, Bool.and_eq_true] at h ⊢
    exact ⟨⟨h.1.1, quiet_put hs obj h.1.2⟩, h.2⟩
  | .setitem o k v, h => by
    simp only [put, quiet, Bool.and_eq_true] at h ⊢
    exact ⟨⟨quiet_put hs o h.1.1, quiet_put hs k h.1.2⟩, quiet_put hs v h.2⟩
  | .setattr o k v, h => by
    simp only [put, quiet, Bool.and_eq_true] at h ⊢
    exact ⟨⟨quiet_put hs o h.1.1, quiet_put hs k h.1.2⟩, quiet_put hs v h.2⟩
  | .pop o k, h => by
    simp only [put, quiet, Bool.and_eq_true] at h ⊢
    exact ⟨quiet_put hs o h.1, quiet_put hs k h.2⟩
  | .delattr o k, h => by
    simp only [put, quiet, Bool.and_eq_true] at h ⊢
    exact ⟨quiet_put hs o h.1, quiet_put hs k h.2⟩
  | .bad _, h => by simp [quiet] at h
  | .given _ _, h => by simp [quiet] at h

theorem quiet_putAll (hs : SigOk N sig) : ∀ (es : List (PyExpr Val)), quietAll N es = true →
    quietAll N (putAll N key sig es) = true
  | [], _ => rfl
  | e :: es, h => by
    simp only [putAll, quietAll, Bool.and_eq_true] at h ⊢
    exact ⟨quiet_put hs e h.1, quiet_putAll hs es h.2⟩

end

/-! ## The check for `row_` -/

theorem chain_mentions : ∀ {e : PyExpr Val}, isChain e = true → mentions varRow e = true
  | .sub e i, h => by
    simp only [mentions, Bool.or_eq_true]
    exact Or.inl (chain_mentions h)
  | .name n, h => h
  | .const _, h => by simp [isChain] at h
  | .getLabel _, h => by simp [isChain] at h
  | .addLabel _ _, h => by simp [isChain] at h
  | .attach _ _, h => by simp [isChain] at h
  | .dot _ _, h => by simp [isChain] at h
  | .getattr _ _, h => by simp [isChain] at h
  | .call _ _ _, h => by simp [isChain] at h
  | .boolop _ _, h => by simp [isChain] at h
  | .eqs _, h => by simp [isChain] at h
  | .not _, h => by simp [isChain] at h
  | .bin _ _ _, h => by simp [isChain] at h
  | .neg _, h => by simp [isChain] at h
  | .ifexp _ _ _, h => by simp [isChain] at h
  | .comp _ _ _ _ _ _ _ _, h => by simp [isChain] at h
  | .display _ _, h => by simp [isChain] at h
  | .getOrDefault _ _ _ _ _ _, h => by simp [isChain] at h
  | .optItems _ _ _ _ _ _, h => by simp [isChain] at h
  | .optDict _ _ _ _ _, h => by simp [isChain] at h
  | .tap _ _ _ _, h => by simp [isChain] at h
  | .setitem _ _ _, h => by simp [isChain] at h
  | .setattr _ _ _, h => by simp [isChain] at h
  | .pop _ _, h => by simp [isChain] at h
  | .delattr _ _, h => by simp [isChain] at h
  | .bad _, h => by simp [isChain] at h
  | .given _ _, h => by simp [isChain] at h

theorem isKey_mentions {e : PyExpr Val} (h : mentions varRow e = false) : isKey N key e = false := by
  cases hc : isChain e with
  | false => simp [isKey, hc]
  | true => rw [chain_mentions hc] at h; cases h

mutual

/-- Nothing is replaced where the row is not used. -/
theorem render_put : ∀ (e : PyExpr Val), mentions varRow e = false → render N (put N key sig e) = render N e
  | .name n, h => by simp only [put, isKey_mentions h, Bool.false_eq_true, if_false]
  | .sub e i, h => by
    simp only [put, isKey_mentions h, Bool.false_eq_true, if_false]
    simp only [mentions, Bool.or_eq_false_iff] at h
    simp only [render, render_put e h.1, render_put i h.2]
  | .const _, _ => rfl
  | .getLabel _, _ => rfl
  | .addLabel l e, h => by
    simp only [mentions] at h
    simp only [put, render, render_put e h]
  | .attach a b, h => by
    simp only [mentions, Bool.or_eq_false_iff] at h
    simp only [put, render, render_put a h.1, render_put b h.2]
  | .dot e a, h => by
    simp only [mentions] at h
    simp only [put, render, render_put e h]
  | .getattr a b, h => by
    simp only [mentions, Bool.or_eq_false_iff] at h
    simp only [put, render, render_put a h.1, render_put b h.2]
  | .call f args kw, h => by
    simp only [mentions, Bool.or_eq_false_iff] at h
    simp only [put, render, render_put f h.1, render_putAll args h.2]
  | .boolop _ es, h => by
    simp only [mentions] at h
    simp only [put, render, render_putAll es h]
  | .eqs es, h => by
    simp only [mentions] at h
    simp only [put, render, render_putAll es h]
  | .not e, h => by
    simp only [mentions] at h
    simp only [put, render, render_put e h]
  | .bin o a b, h => by
    simp only [mentions, Bool.or_eq_false_iff] at h
    cases o <;> simp only [put, render, render_put a h.1, render_put b h.2]
  | .neg e, h => by
    simp only [mentions] at h
    simp only [put, render, render_put e h]
  | .ifexp t c f, h => by
    simp only [mentions, Bool.or_eq_false_iff] at h
    simp only [put, render, render_put t h.1.1, render_put c h.1.2, render_put f h.2]
  | .comp k item value var iter hasCond cond sort, h => by
    simp only [mentions, Bool.or_eq_false_iff, Bool.and_eq_false_iff] at h
    obtain ⟨⟨⟨⟨_, h1⟩, h2⟩, h3⟩, h4⟩ := h
    have e4 : (if hasCond then " if " ++ render N (put N key sig cond) else "") =
        (if hasCond then " if " ++ render N cond else "") := by
      cases hasCond
      · rfl
      · simp only [Bool.true_eq_false, false_or] at h4
        simp only [if_true, render_put cond h4]
    simp only [put, render, e4, render_put item h1, render_put iter h3]
    cases k <;> try rfl
    simp only [beq_self_eq_true, Bool.true_eq_false, false_or] at h2
    simp only [render_put value h2]
  | .display k items, h => by
    simp only [mentions] at h
    cases k <;> simp only [put, render, render_putAll items h]
  | .getOrDefault _ _ selfGiven self obj dflt, h => by
    simp only [mentions, Bool.or_eq_false_iff, Bool.and_eq_false_iff] at h
    cases selfGiven
    · simp only [put, render, render_put obj h.1.2, render_put dflt h.2, Bool.false_eq_true, if_false]
    · have h1 := h.1.1
      simp only [Bool.true_eq_false, false_or] at h1
      simp only [put, render, render_put obj h.1.2, render_put dflt h.2, render_put self h1]
  | .optItems k _ _ _ obj _, h => by
    simp only [mentions, Bool.or_eq_false_iff] at h
    simp only [put, render, render_put obj h.1]
  | .optDict _ _ _ obj _, h => by
    simp only [mentions, Bool.or_eq_false_iff] at h
    simp only [put, render, render_put obj h.1]
  | .tap _ obj _ _, h => by
    simp only [mentions, Bool.or_eq_false_iff] at h
    simp only [put, render, render_put obj h.1]
  | .setitem o k v, h => by
    simp only [mentions, Bool.or_eq_false_iff] at h
    simp only [put, render, render_put o h.1.1, render_put k h.1.2, render_put v h.2]
  | .setattr o k v, h => by
    simp only [mentions, Bool.or_eq_false_iff] at h
    simp only [put, render, render_put o h.1.1, render_put k h.1.2, render_put v h.2]
  | .pop o k, h => by
    simp only [mentions, Bool.or_eq_false_iff] at h
    simp only [put, render, render_put o h.1, render_put k h.2]
  | .delattr o k, h => by
    simp only [mentions, Bool.or_eq_false_iff] at h
    simp only [put, render, render_put o h.1, render_put k h.2]
  | .bad _, _ => rfl
  | .given _ _, _ => rfl

theorem render_putAll : ∀ (es : List (PyExpr Val)), mentionsAny varRow es = false →
    renderAll N (putAll N key sig es) = renderAll N es
  | [], _ => rfl
  | e :: es, h => by
    simp only [mentionsAny, Bool.or_eq_false_iff] at h
    simp only [putAll, renderAll, render_put e h.1, render_putAll es h.2]

end

theorem replace_length (pat : List Char) : ∀ (cs : List Char) (n : Nat),
    (replaceFrom pat [] n cs).length ≤ cs.length
  | [], n => by simp [replaceFrom]
  | c :: cs, 0 => by
    simp only [replaceFrom]
    split
    · have := replace_length pat cs (pat.length - 1)
      simp only [List.nil_append, List.length_cons]
      omega
    · have := replace_length pat cs 0
      simp only [List.length_cons]
      omega
  | c :: cs, n + 1 => by
    simp only [replaceFrom]
    have := replace_length pat cs n
    simp only [List.length_cons]
    omega

theorem replace_length_lt {pat v : List Char} (hp : pat <+: v) (hne : pat ≠ []) : ∀ (u : List Char),
    (replaceFrom pat [] 0 (u ++ v)).length < (u ++ v).length
  | [] => by
    obtain ⟨r, rfl⟩ := hp
    rw [List.nil_append, replace_at _ _ hne, List.nil_append]
    have h1 := replace_length pat r 0
    have h2 : 0 < pat.length := List.length_pos_iff.2 hne
    simp only [List.length_append]
    omega
  | c :: u => by
    simp only [List.cons_append, replaceFrom]
    split
    · have := replace_length pat (u ++ v) (pat.length - 1)
      simp only [List.nil_append, List.length_cons]
      omega
    · have := replace_length_lt hp hne u
      simp only [List.length_cons]
      omega

/-- A text which does not change has no occurrences. -/
theorem not_in_of_same {s pat : String} (hp : pat ≠ "") (h : replace s pat "" = s) : isIn pat s = false := by
  cases hi : isIn pat s with
  | false => rfl
  | true =>
    obtain ⟨u, v, e1, e2⟩ := isIn_iff.1 hi
    have h1 := replace_length_lt (u := u) e2 (by intro h; exact hp (String.toList_inj.1 (by rw [h]; rfl)))
    rw [← e1] at h1
    have h2 := congrArg (fun s => s.toList.length) h
    simp only [replace, String.toList_ofList, String.toList_empty] at h2
    omega

/-- A text with no occurrences does not change. -/
theorem same_of_not_in {s pat rep : String} (h : isIn pat s = false) : replace s pat rep = s := by
  have : replaceFrom pat.toList rep.toList 0 (s.toList ++ []) = s.toList ++ replaceFrom pat.toList rep.toList 0 [] := by
    apply replace_skip
    intro u v e1 _ hp
    rw [List.append_nil] at hp
    have := isIn_iff.2 ⟨u, v, e1, hp⟩
    rw [h] at this
    cases this
  simp only [List.append_nil, replaceFrom] at this
  rw [replace, this, String.ofList_toList]

set_option maxHeartbeats 1600000 in
mutual

theorem sub_mentions : ∀ (e : PyExpr Val), wf N e = true → quiet N e = true → mentions varRow e = true →
    Expr.Sub varRow (render N e)
  | .name n, _, _, h => by
    simp only [mentions, beq_iff_eq] at h
    rw [h]
    exact Sub.refl _
  | .sub e i, w, q, h => by
    simp only [wf, quiet, mentions, Bool.and_eq_true, Bool.or_eq_true] at w q h
    simp only [render]
    rcases h with h | h
    · exact (((sub_mentions e w.1.2 q.1 h).right _).right _).right _
    · exact ((sub_mentions i w.2 q.2 h).left _).right _
  | .const _, _, _, h => by simp [mentions] at h
  | .getLabel _, _, _, h => by simp [mentions] at h
  | .addLabel l e, w, q, h => by
    simp only [wf, quiet, mentions, Bool.and_eq_true] at w q h
    simp only [render]
    exact ((sub_mentions e w.2 q.2 h).left _).right _
  | .attach a b, w, q, h => by
    simp only [wf, quiet, mentions, Bool.and_eq_true, Bool.or_eq_true] at w q h
    simp only [render]
    rcases h with h | h
    · exact ((((sub_mentions a w.1 q.1 h).left _).right _).right _).right _
    · exact ((sub_mentions b w.2 q.2 h).left _).right _
  | .dot e a, w, q, h => by
    simp only [wf, quiet, mentions, Bool.and_eq_true] at w q h
    simp only [render]
    exact ((sub_mentions e w.2 q.2 h).right _).right _
  | .getattr a b, w, q, h => by
    simp only [wf, quiet, mentions, Bool.and_eq_true, Bool.or_eq_true] at w q h
    simp only [render]
    rcases h with h | h
    · exact ((((sub_mentions a w.1 q.1 h).left _).right _).right _).right _
    · exact ((sub_mentions b w.2 q.2 h).left _).right _
  | .call f args kw, w, q, h => by
    simp only [wf, quiet, mentions, Bool.and_eq_true, Bool.or_eq_true] at w q h
    simp only [render]
    rcases h with h | h
    · exact (((sub_mentions f w.1.2 q.1.2 h).right _).right _).right _
    · obtain ⟨t, ht, hs⟩ := sub_mentionsAny args w.2 q.2 h
      obtain ⟨y, hy, hs'⟩ := sub_withKw (kw := kw) ht
      exact ((hs.trans (hs'.trans (sub_join "," hy))).left _).right _
  | .boolop isAnd es, w, q, h => by
    simp only [wf, quiet, mentions, Bool.and_eq_true] at w q h
    simp only [render]
    obtain ⟨t, ht, hs⟩ := sub_mentionsAny es w.2 q h
    exact ((hs.trans (sub_join _ ht)).left _).right _
  | .eqs es, w, q, h => by
    simp only [wf, quiet, mentions, Bool.and_eq_true] at w q h
    simp only [render]
    obtain ⟨t, ht, hs⟩ := sub_mentionsAny es w.2 q h
    exact ((hs.trans (sub_join _ ht)).left _).right _
  | .not e, w, q, h => by
    simp only [wf, quiet, mentions] at w q h
    simp only [render]
    exact ((sub_mentions e w q h).left _).right _
  | .bin o a b, w, q, h => by
    simp only [mentions, Bool.or_eq_true] at h
    cases o
    case index =>
      simp only [wf, quiet, Bool.and_eq_true] at w q
      simp only [render]
      rcases h with h | h
      · exact ((((sub_mentions a w.1.2 q.1.2 h).left _).right _).right _).right _
      · exact ((sub_mentions b w.2 q.2 h).left _).right _
    all_goals
      simp only [wf, quiet, Bool.and_eq_true] at w q
      simp only [render]
      rcases h with h | h
      · exact ((((sub_mentions a w.1 q.1 h).left _).right _).right _).right _
      · exact ((sub_mentions b w.2 q.2 h).left _).right _
  | .neg e, w, q, h => by
    simp only [wf, quiet, mentions] at w q h
    simp only [render]
    exact ((sub_mentions e w q h).left _).right _
  | .ifexp t c f, w, q, h => by
    simp only [wf, quiet, mentions, Bool.and_eq_true, Bool.or_eq_true] at w q h
    simp only [render]
    rcases h with (h | h) | h
    · exact ((((((sub_mentions t w.1.1 q.1.1 h).left _).right _).right _).right _).right _).right _
    · exact ((((sub_mentions c w.1.2 q.1.2 h).left _).right _).right _).right _
    · exact ((sub_mentions f w.2 q.2 h).left _).right _
  | .comp k item value var iter hasCond cond sort, w, q, h => by
    simp only [wf, quiet, mentions, Bool.and_eq_true, Bool.or_eq_true, beq_iff_eq] at w q h
    obtain ⟨⟨⟨⟨_, w1⟩, w2⟩, w3⟩, w4⟩ := w
    obtain ⟨⟨⟨⟨⟨⟨q0, _⟩, q1⟩, q2⟩, q3⟩, q4⟩, _⟩ := q
    have sort' : ∀ (k : Kind) (s : String), Expr.Sub varRow s → Expr.Sub varRow (sortText N k s sort) := by
      intro k s hs
      cases sort with
      | none => exact hs
      | some p =>
        have h1 : Expr.Sub varRow ("sorted(" ++ s ++ ", key=" ++ N.const p.1 ++ ",reverse=" ++
            N.const (.bool p.2) ++ ")") := ((((((hs.left _).right _).right _).right _).right _)).right _
        cases k <;> simp only [sortText]
        · exact h1
        · exact (h1.left _).right _
        · exact h1
        · exact (h1.left _).right _
    simp only [render]
    apply sort'
    have hg : ∀ it : String, (mentions varRow item = true → Expr.Sub varRow it) →
        (k = .dict → mentions varRow value = true → Expr.Sub varRow it) →
        Expr.Sub varRow (it ++ " for " ++ var ++ " in " ++ render N iter ++
          (if hasCond = true then " if " ++ render N cond else "")) := by
      intro it hi hv
      rcases h with (((h | h) | ⟨hk, h⟩) | h) | ⟨hh, h⟩
      · rw [h] at q0
        exact absurd q0 (by decide)
      · exact (((((hi h).right _).right _).right _).right _).right _
      · exact (((((hv hk h).right _).right _).right _).right _).right _
      · exact ((sub_mentions iter w3 q3 h).left _).right _
      · simp only [hh, if_true]
        exact ((sub_mentions cond w4 q4 h).left _).left _
    have h1 := sub_mentions item w1 q1
    have h2 := sub_mentions value w2 q2
    cases k
    · exact ((hg _ h1 (by simp)).left _).right _
    · cases sort with
      | none => exact ((hg _ h1 (by simp)).left _).right _
      | some p => exact ((hg _ h1 (by simp)).left _).right _
    · exact ((hg _ h1 (by simp)).left _).right _
    · cases sort with
      | none =>
        exact ((hg (render N item ++ ": " ++ render N value) (fun h => ((h1 h).right _).right _)
          (fun _ h => (h2 h).left _)).left _).right _
      | some p =>
        exact ((hg ("(" ++ render N item ++ ", " ++ render N value ++ ")")
          (fun h => ((((h1 h).left _).right _).right _).right _) (fun _ h => ((h2 h).left _).right _)).left _).right _
  | .display k items, w, q, h => by
    simp only [wf, quiet, mentions, Bool.and_eq_true] at w q h
    obtain ⟨t, ht, hs⟩ := sub_mentionsAny items w.2 q h
    cases k <;> simp only [render]
    · exact ((hs.trans (sub_join _ ht)).left _).right _
    · exact ((hs.trans (sub_join _ ht)).left _).right _
    · exact ((hs.trans (sub_join _ ht)).left _).right _
    · obtain ⟨y, hy, hs'⟩ := sub_pairTexts (by rw [renderAll_length]; simpa using w.1) ht
      exact ((hs.trans (hs'.trans (sub_join "," hy))).left _).right _
  | .getOrDefault _ _ selfGiven self obj dflt, w, q, h => by
    simp only [wf, quiet, mentions, Bool.and_eq_true, Bool.or_eq_true] at w q h
    obtain ⟨⟨⟨_, w2⟩, w3⟩, w4⟩ := w
    obtain ⟨⟨⟨q1, q2⟩, q3⟩, q4⟩ := q
    simp only [render]
    rcases h with (⟨hg, h⟩ | h) | h
    · have h1 := sub_mentions self w2 q2 h
      simp only [hg, if_true]
      exact (((((h1.right _).left _).right _).right _).right _).right _
    · exact ((((sub_mentions obj w3 q3 h).left _).right _).right _).right _
    · exact ((sub_mentions dflt w4 q4 h).left _).right _
  | .optItems k fname _ _ obj args, w, q, h => by
    simp only [wf, quiet, mentions, Bool.and_eq_true, Bool.or_eq_true] at w q h
    have : ∃ t ∈ render N obj :: args, Expr.Sub varRow t := by
      rcases h with h | h
      · exact ⟨_, by simp, sub_mentions obj w.1.2 q.1.2 h⟩
      · exact ⟨varRow, by simp [List.contains_iff_mem.1 h], Sub.refl _⟩
    obtain ⟨t, ht, hs⟩ := this
    simp only [render]
    exact ((hs.trans (sub_join _ ht)).left _).right _
  | .optDict fname _ _ obj args, w, q, h => by
    simp only [wf, quiet, mentions, Bool.and_eq_true, Bool.or_eq_true] at w q h
    have : ∃ t ∈ render N obj :: args, Expr.Sub varRow t := by
      rcases h with h | h
      · exact ⟨_, by simp, sub_mentions obj w.1.2 q.1.2 h⟩
      · exact ⟨varRow, by simp [List.contains_iff_mem.1 h], Sub.refl _⟩
    obtain ⟨t, ht, hs⟩ := this
    simp only [render]
    exact ((hs.trans (sub_join _ ht)).left _).right _
  | .tap fname obj _ args, w, q, h => by
    simp only [wf, quiet, mentions, Bool.and_eq_true, Bool.or_eq_true] at w q h
    have : ∃ t ∈ render N obj :: args, Expr.Sub varRow t := by
      rcases h with h | h
      · exact ⟨_, by simp, sub_mentions obj w.1.2 q.1.2 h⟩
      · exact ⟨varRow, by simp [List.contains_iff_mem.1 h], Sub.refl _⟩
    obtain ⟨t, ht, hs⟩ := this
    simp only [render]
    exact ((hs.trans (sub_join _ ht)).left _).right _
  | .setattr o k v, w, q, h => by
    simp only [wf, quiet, mentions, Bool.and_eq_true, Bool.or_eq_true] at w q h
    simp only [render]
    rcases h with (h | h) | h
    · exact ((((((sub_mentions o w.1.1 q.1.1 h).left _).right _).right _).right _).right _).right _
    · exact ((((sub_mentions k w.1.2 q.1.2 h).left _).right _).right _).right _
    · exact ((sub_mentions v w.2 q.2 h).left _).right _
  | .pop o k, w, q, h => by
    simp only [wf, quiet, mentions, Bool.and_eq_true, Bool.or_eq_true] at w q h
    simp only [render]
    rcases h with h | h
    · exact (((sub_mentions o w.1.2 q.1 h).right _).right _).right _
    · exact ((sub_mentions k w.2 q.2 h).left _).right _
  | .delattr o k, w, q, h => by
    simp only [wf, quiet, mentions, Bool.and_eq_true, Bool.or_eq_true] at w q h
    simp only [render]
    rcases h with h | h
    · exact ((((sub_mentions o w.1 q.1 h).left _).right _).right _).right _
    · exact ((sub_mentions k w.2 q.2 h).left _).right _
  | .setitem _ _ _, w, _, _ => by simp [wf] at w
  | .bad _, w, _, _ => by simp [wf] at w
  | .given _ _, w, _, _ => by simp [wf] at w

theorem sub_mentionsAny : ∀ (es : List (PyExpr Val)), wfAll N es = true → quietAll N es = true →
    mentionsAny varRow es = true → ∃ t ∈ renderAll N es, Expr.Sub varRow t
  | [], _, _, h => by simp [mentionsAny] at h
  | e :: es, w, q, h => by
    simp only [wfAll, quietAll, mentionsAny, Bool.and_eq_true, Bool.or_eq_true] at w q h
    rcases h with h | h
    · exact ⟨_, by simp [renderAll], sub_mentions e w.1 q.1 h⟩
    · obtain ⟨t, ht, hs⟩ := sub_mentionsAny es w.2 q.2 h
      exact ⟨t, by simp [renderAll, ht], hs⟩

end

/-- The check for `row_` in the text finds whether the row is used. -/
theorem isIn_row (hN : PyNames printable N) {e : PyExpr Val} (hw : wf N e = true) (hq : quiet N e = true) :
    isIn varRow (render N e) = mentions varRow e := by
  cases hm : mentions varRow e with
  | true => exact (sub_mentions e hw hq hm).isIn
  | false =>
    apply not_in_of_same (by decide)
    have h := replace_render hN (key := .name varRow) rfl (show isName varRow = true by decide +kernel) (.bad "") hw hq
    rw [render_put e hm] at h
    exact h

end

end Verif.GroupKeys
