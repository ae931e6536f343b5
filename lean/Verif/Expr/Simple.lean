import Verif.Expr.Run

/-!
# Expressions: code with a simple text has no effects
-/

set_option autoImplicit false

namespace Verif.Expr

section
variable {Val U Err : Type} {R : Runtime Val U Err} {fuel : Nat} {N : Names Val}

/-- Characters of simple texts. -/
def plainChar (c : Char) : Bool := isWord c || c == '"' || c == '\''

theorem paren_strip (m : String) :
    (if (("(" ++ m ++ ")").toList.head? == some '(' && ("(" ++ m ++ ")").toList.getLast? == some ')') = true then
      (("(" ++ m ++ ")").toList.drop 1).dropLast else ("(" ++ m ++ ")").toList) = m.toList := by
  have h1 : ("(" ++ m ++ ")").toList = '(' :: (m.toList ++ [')']) := by simp
  have h2 : ('(' :: (m.toList ++ [')'])).getLast? = some ')' := by
    rw [← List.cons_append]
    exact List.getLast?_concat
  rw [h1, h2]
  simp

theorem simple_iff (t : String) : inputIsSimple t = true ↔
    ∃ m : String, (t = m ∨ t = "(" ++ m ++ ")") ∧ m.toList.all plainChar = true := by
  unfold inputIsSimple
  dsimp only
  constructor
  · intro h
    split at h
    · rename_i hp
      simp only [Bool.and_eq_true, beq_iff_eq] at hp
      cases hl : t.toList with
      | nil => rw [hl] at hp; simp at hp
      | cons a rest =>
        rw [hl] at hp h
        simp only [List.head?_cons, Option.some.injEq] at hp
        obtain ⟨rfl, hlast⟩ := hp
        simp only [List.drop_succ_cons, List.drop_zero] at h
        have hr : rest ≠ [] := by
          intro hr
          rw [hr] at hlast
          simp at hlast
        rw [List.getLast?_cons_of_ne_nil hr] at hlast
        refine ⟨String.ofList rest.dropLast, Or.inr ?_, by simpa [plainChar] using h⟩
        apply String.toList_injective
        rw [hl]
        have : rest.getLast hr = ')' := by
          rw [List.getLast?_eq_some_getLast hr] at hlast
          exact Option.some.inj hlast
        have h2 := List.dropLast_concat_getLast hr
        rw [this] at h2
        simp [h2]
    · exact ⟨t, Or.inl rfl, h⟩
  · rintro ⟨m, rfl | rfl, hm⟩
    · split
      · simp only [List.all_eq_true] at hm ⊢
        intro c hc
        exact hm c (List.mem_of_mem_drop (List.dropLast_subset _ hc))
      · exact hm
    · rw [paren_strip]
      exact hm

theorem simple_paren {m : String} (h : inputIsSimple ("(" ++ m ++ ")") = true) : inputIsSimple m = true := by
  unfold inputIsSimple at h
  dsimp only at h
  rw [paren_strip] at h
  exact (simple_iff m).2 ⟨m, Or.inl rfl, h⟩

/-- Evaluating the code changes nothing. -/
def Quiet (R : Runtime Val U Err) (fuel : Nat) (g : PyExpr Val) : Prop :=
  ∀ (ρ : Env Val) (s : St Val U), (eval R fuel g ρ s).2 = s

/-- Code which has no effects if its text is simple, and some text. -/
def QuietIf (R : Runtime Val U Err) (fuel : Nat) (N : Names Val) (g : PyExpr Val) : Prop :=
  (inputIsSimple (render N g) = true → Quiet R fuel g) ∧ render N g ≠ ""

theorem QuietIf.complex {g : PyExpr Val} (h : inputIsSimple (render N g) = false) : QuietIf R fuel N g :=
  ⟨fun hs => (by rw [h] at hs; cases hs), fun he => (by rw [he] at h; revert h; decide)⟩

theorem QuietIf.char {g : PyExpr Val} (c : Char) (hc : c ∈ (render N g).toList) (h1 : c ≠ '(') (h2 : c ≠ ')')
    (h3 : (isWord c || c == '"' || c == '\'') = false) : QuietIf R fuel N g :=
  .complex (complex_of_mem c hc h1 h2 h3)

theorem QuietIf.quiet {g : PyExpr Val} (h : Quiet R fuel g) (ht : render N g ≠ "") : QuietIf R fuel N g :=
  ⟨fun _ => h, ht⟩

theorem quiet_name (n : String) : Quiet R fuel (.name n) := by
  intro ρ s
  simp only [eval, runName]
  cases ρ n <;> rfl

theorem quiet_const (l : Lit Val) : Quiet R fuel (.const l) := fun _ _ => rfl

theorem quiet_bad (m : String) : Quiet R fuel (.bad m) := fun _ _ => rfl

theorem quiet_label (l : Lbl) : Quiet R fuel (.getLabel l) := by
  intro ρ s
  cases l with
  | user n => simp only [eval, runGet]; cases s.labels n <;> rfl
  | cached p => simp only [eval, runGet]; cases s.cached p <;> rfl

theorem QuietIf.fin {esc : Bool} {e r : PyExpr Val} (hr : QuietIf R fuel N r) : QuietIf R fuel N (fin N esc e r) := by
  unfold Verif.Expr.fin attachTo
  split
  · split
    · exact .complex (complex_attach e r)
    · exact hr
  · exact hr

theorem join_two (sep a b : String) (rest : List String) {c : Char} (hc : c ∈ sep.toList) :
    c ∈ (join sep (a :: b :: rest)).toList := by
  simp only [join]
  exact mem_append_left' (mem_append_right' hc)

theorem mem_sortText (k : Kind) (x : String) (sort : Option (Lit Val × Bool)) {c : Char} (h : c ∈ x.toList) :
    c ∈ (sortText N k x sort).toList := by
  unfold sortText
  have hs : ∀ key rev, c ∈ ("sorted(" ++ x ++ ", key=" ++ N.const key ++ ",reverse=" ++ N.const (.bool rev) ++
      ")").toList := fun key rev =>
    mem_append_left' (mem_append_left' (mem_append_left' (mem_append_left' (mem_append_left' (mem_append_right' h)))))
  split
  · exact h
  · cases k with
    | list => exact hs _ _
    | set => exact hs _ _
    | tuple => exact mem_append_left' (mem_append_right' (hs _ _))
    | dict => exact mem_append_left' (mem_append_right' (hs _ _))

theorem complex_call2 (f a : String) (hf : f ≠ "") : inputIsSimple (f ++ "(" ++ a ++ "))") = false := by
  have h : f ++ "(" ++ a ++ "))" = f ++ "(" ++ (a ++ ")") ++ ")" := by
    have : ("))" : String) = ")" ++ ")" := by decide
    rw [this]
    simp [String.append_assoc]
  rw [h]
  exact complex_call hf

theorem prefix_ne (a b : String) (ha : a ≠ "") : a ++ b ≠ "" := by
  intro h
  apply ha
  have := congrArg String.toList h
  rw [String.toList_append] at this
  have h2 := (List.append_eq_nil_iff.1 (this.trans (by simp))).1
  exact String.toList_inj.1 (by rw [h2]; rfl)

theorem genAll_cases (cs : List (Conv Val)) (e : PyExpr Val) (p : List Nat) :
    (cs = [] ∧ genAll N cs e p 0 = []) ∨
    (∃ c, cs = [c] ∧ genAll N cs e p 0 = [gen N false c e (p ++ [0])]) ∨
    ∃ a b rest, genAll N cs e p 0 = a :: b :: rest := by
  match cs with
  | [] => exact Or.inl ⟨rfl, rfl⟩
  | [c] => exact Or.inr (Or.inl ⟨c, rfl, rfl⟩)
  | a :: b :: rest => exact Or.inr (Or.inr ⟨_, _, _, rfl⟩)

theorem quiet_gen (hconst : ∀ l, N.const l ≠ "") (hhelper : ∀ k p, N.helper k p ≠ "") :
    ∀ (c : Conv Val) (esc : Bool) (e : PyExpr Val) (p : List Nat), "" ∉ c.args → QuietIf R fuel N e →
    QuietIf R fuel N (gen N esc c e p)
  | c, esc, e, p, ha, he => by
    cases c with
    | this => exact he.fin
    | naive l => exact (QuietIf.quiet (quiet_const l) (hconst l)).fin
    | arg n => exact (QuietIf.quiet (quiet_name n) (fun h => ha (by
        simp only [render] at h
        simp [Conv.args, h]))).fin
    | label n => exact (QuietIf.quiet (quiet_label _) (fun h => by
        have := congrArg String.length h
        simp [render] at this)).fin
    | lookup attr s idx =>
      simp only [Conv.args] at ha
      refine QuietIf.fin ?_
      cases idx with
      | nil => exact quiet_gen hconst hhelper s false e _ (fun h => ha (by simp [h])) he
      | cons i is =>
        simp only [genAll]
        obtain ⟨c, h1, h2, h3, h4⟩ := complex_wrapAll (N := N) attr (gen N false s e (p ++ [0]))
          (gen N false i e (p ++ [1] ++ [0])) (genAll N is e (p ++ [1]) (0 + 1))
        exact .char c h1 h2 h3 h4
    | lookupD attr s idx d =>
      refine QuietIf.fin (.char ',' ?_ (by decide) (by decide) (by decide))
      simp only [render]
      exact mem_append_left' (mem_append_left' (mem_append_right' (by decide)))
    | call s as kw =>
      simp only [Conv.args] at ha
      refine QuietIf.fin (.complex ?_)
      simp only [render]
      exact complex_call (quiet_gen hconst hhelper s false e _ (fun h => ha (by simp [h])) he).2
    | boolop isAnd as =>
      simp only [Conv.args] at ha
      refine QuietIf.fin ?_
      rcases genAll_cases (N := N) as e (p ++ [1]) with ⟨_, h⟩ | ⟨c, rfl, h⟩ | ⟨a, b, rest, h⟩
      · rw [h]
        exact .quiet (fun ρ s => rfl) (by simp [render, renderAll, join])
      · have hq := quiet_gen hconst hhelper c false e (p ++ [1] ++ [0]) (fun h => ha (by simp [argsAll, h])) he
        rw [h]
        refine ⟨fun hs => ?_, fun ht => ?_⟩
        · simp only [render, renderAll, join] at hs
          intro ρ s
          have := hq.1 (simple_paren hs) ρ s
          have he : eval R fuel (.boolop isAnd [gen N false c e (p ++ [1] ++ [0])]) ρ =
              eval R fuel (gen N false c e (p ++ [1] ++ [0])) ρ := by
            simp only [eval, evalBool]
            exact bind_pure' _
          rw [he]
          exact this
        · have := congrArg String.length ht
          simp [render, renderAll, join] at this
      · rw [h]
        refine .char ' ' ?_ (by decide) (by decide) (by decide)
        simp only [render, renderAll]
        refine mem_append_left' (mem_append_right' (join_two _ _ _ _ ?_))
        cases isAnd <;> decide
    | eqs as =>
      simp only [Conv.args] at ha
      refine QuietIf.fin ?_
      rcases genAll_cases (N := N) as e (p ++ [1]) with ⟨_, h⟩ | ⟨c, rfl, h⟩ | ⟨a, b, rest, h⟩
      · rw [h]
        exact .quiet (fun ρ s => rfl) (by simp [render, renderAll, join])
      · have hq := quiet_gen hconst hhelper c false e (p ++ [1] ++ [0]) (fun h => ha (by simp [argsAll, h])) he
        rw [h]
        refine ⟨fun hs => ?_, fun ht => ?_⟩
        · simp only [render, renderAll, join] at hs
          intro ρ s
          have := hq.1 (simple_paren hs) ρ s
          have he : eval R fuel (.eqs [gen N false c e (p ++ [1] ++ [0])]) ρ =
              eval R fuel (gen N false c e (p ++ [1] ++ [0])) ρ := by
            simp only [eval, evalEqs, evalEqs']
            exact bind_pure' _
          rw [he]
          exact this
        · have := congrArg String.length ht
          simp [render, renderAll, join] at this
      · rw [h]
        refine .char ' ' ?_ (by decide) (by decide) (by decide)
        simp only [render, renderAll]
        exact mem_append_left' (mem_append_right' (join_two _ _ _ _ (by decide)))
    | not a =>
      refine QuietIf.fin (.char ' ' ?_ (by decide) (by decide) (by decide))
      simp only [render]
      exact mem_append_left' (mem_append_left' (by decide))
    | bin o a b =>
      refine QuietIf.fin ?_
      cases o with
      | index =>
        refine .char '[' ?_ (by decide) (by decide) (by decide)
        simp only [render]
        exact mem_append_left' (mem_append_left' (mem_append_right' (by decide)))
      | _ =>
        refine .char ' ' ?_ (by decide) (by decide) (by decide)
        simp only [render]
        exact mem_append_left' (mem_append_left' (mem_append_right' (by decide)))
    | neg a =>
      refine QuietIf.fin (.char '-' ?_ (by decide) (by decide) (by decide))
      simp only [render]
      exact mem_append_left' (mem_append_left' (by decide))
    | ifc c t f nc =>
      refine QuietIf.fin (.char ' ' ?_ (by decide) (by decide) (by decide))
      simp only [render]
      exact mem_append_left' (mem_append_left' (mem_append_left' (mem_append_left' (mem_append_right' (by decide)))))
    | comp k i v hc c sort =>
      refine QuietIf.fin ?_
      split
      · exact .quiet (quiet_bad _) (by simp only [render]; decide)
      · refine .char ' ' ?_ (by decide) (by decide) (by decide)
        simp only [render]
        refine mem_sortText k _ sort ?_
        have hfor : ∀ (a b d f : String), ' ' ∈ (a ++ " for " ++ b ++ " in " ++ d ++ f).toList := fun a b d f =>
          mem_append_left' (mem_append_left' (mem_append_right' (by decide)))
        cases k with
        | list => exact mem_append_left' (mem_append_right' (hfor _ _ _ _))
        | set => exact mem_append_left' (mem_append_right' (hfor _ _ _ _))
        | tuple =>
          dsimp only
          split <;> exact mem_append_left' (mem_append_right' (hfor _ _ _ _))
        | dict =>
          dsimp only
          split <;> exact mem_append_left' (mem_append_right' (hfor _ _ _ _))
    | coll k items =>
      refine QuietIf.fin ?_
      split
      · refine .complex ?_
        simp only [render]
        cases k <;> exact complex_call2 _ _ (prefix_ne _ _ (by decide))
      · split
        · exact .quiet (quiet_bad _) (by simp only [render]; decide)
        · cases k with
          | list =>
            refine .char '[' ?_ (by decide) (by decide) (by decide)
            have hk : (if (items.isEmpty && Kind.list == .set) = true then Kind.dict else Kind.list) = .list := by
              have : (Kind.list == Kind.set) = false := rfl
              simp [this]
            rw [hk]
            simp only [render]
            exact mem_append_left' (mem_append_left' (by decide))
          | tuple =>
            refine .char ',' ?_ (by decide) (by decide) (by decide)
            have hk : (if (items.isEmpty && Kind.tuple == .set) = true then Kind.dict else Kind.tuple) = .tuple := by
              have : (Kind.tuple == Kind.set) = false := rfl
              simp [this]
            rw [hk]
            simp only [render]
            exact mem_append_right' (by decide)
          | set =>
            refine .char '{' ?_ (by decide) (by decide) (by decide)
            split
            · simp only [render]
              exact mem_append_left' (mem_append_left' (by decide))
            · simp only [render]
              exact mem_append_left' (mem_append_left' (by decide))
          | dict =>
            refine .char '{' ?_ (by decide) (by decide) (by decide)
            split
            · simp only [render]
              exact mem_append_left' (mem_append_left' (by decide))
            · simp only [render]
              exact mem_append_left' (mem_append_left' (by decide))
    | dict kvs =>
      refine QuietIf.fin ?_
      split
      · refine .complex ?_
        simp only [render]
        exact complex_call2 _ _ (prefix_ne _ _ (by decide))
      · refine .char '{' ?_ (by decide) (by decide) (by decide)
        simp only [render]
        exact mem_append_left' (mem_append_left' (by decide))
    | opt c cond => exact (QuietIf.quiet (quiet_bad _) (by simp only [render]; decide)).fin
    | caching c name labels convs =>
      refine QuietIf.fin (.char ' ' ?_ (by decide) (by decide) (by decide))
      simp only [render]
      refine mem_append_left' (mem_append_right' ?_)
      cases labelLines labels (genAll N convs (.getLabel (.user name)) (p ++ [1]) 0) with
      | nil =>
        simp only [List.nil_append, renderAll]
        exact join_two _ _ _ _ (by decide)
      | cons x xs =>
        simp only [List.cons_append, renderAll]
        exact join_two _ _ _ _ (by decide)
    | tap o ms =>
      refine QuietIf.fin (.complex ?_)
      simp only [render]
      exact complex_call (hhelper _ _)
    | mutSetItem k v =>
      refine QuietIf.fin (.char '[' ?_ (by decide) (by decide) (by decide))
      simp only [render]
      exact mem_append_left' (mem_append_left' (mem_append_left' (mem_append_right' (by decide))))
    | mutSetAttr k v =>
      refine QuietIf.fin (.char ',' ?_ (by decide) (by decide) (by decide))
      simp only [render]
      exact mem_append_left' (mem_append_left' (mem_append_right' (by decide)))
    | mutDelItem k =>
      refine QuietIf.fin (.char '.' ?_ (by decide) (by decide) (by decide))
      simp only [render]
      exact mem_append_left' (mem_append_left' (mem_append_right' (by decide)))
    | mutDelAttr k =>
      refine QuietIf.fin (.char ',' ?_ (by decide) (by decide) (by decide))
      simp only [render]
      exact mem_append_left' (mem_append_left' (mem_append_right' (by decide)))
    | mutCustom c =>
      simp only [Conv.args] at ha
      exact (quiet_gen hconst hhelper c false e _ ha he).fin
    | pipe a b =>
      simp only [Conv.args] at ha
      rw [gen_pipe]
      have h1 := quiet_gen hconst hhelper a esc e (p ++ [0]) (fun h => ha (by simp [h])) he
      have h2 := quiet_gen hconst hhelper b false _ (p ++ [1]) (fun h => ha (by simp [h])) h1
      exact QuietIf.fin (esc := true) h2

end

end Verif.Expr
