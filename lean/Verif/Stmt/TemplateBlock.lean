import Verif.Stmt.TemplateStmts
import Verif.Stmt.TemplateRename

/-!
# Stmt: how the block of a reducer is read

Nothing here is code of the repository.
-/

set_option autoImplicit false

namespace Verif.Stmt

open Verif.Text Verif.Agg

/-! ## Variables -/

theorem place_lxDot (m : Bool) (j : Nat) : LxDot (placeText m j).toList (placeToks m j) := by
  intro cs h1
  cases m with
  | true => exact reads_name (varAgg_name j) false cs h1 (by simp)
  | false =>
    have e : (placeText false j).toList ++ cs = "agg_data_".toList ++ (".".toList ++ ((attrName j).toList ++ cs)) := by
      simp [placeText, varGroup, attrName, String.toList_append]
    have hp : Piece "." [.dot] := by decide +kernel
    have ha := reads_name (attrName_name j) false cs h1 (by simp)
    have hb := reads_name (s := "agg_data_") (by decide +kernel) false (".".toList ++ ((attrName j).toList ++ cs))
      (by simp [wEnd, idChar]) (by simp)
    rw [e, hb, hp.lex, ha]
    cases lexFrom .start cs <;> simp [placeToks]

theorem place_startsOk (m : Bool) (j : Nat) : startsOk (placeText m j).toList = true := by
  have := place_head m j
  cases h : (placeText m j).toList with
  | nil => rw [h] at this; cases this
  | cons c s =>
    rw [h] at this
    simp only [List.head?_cons, Option.some.injEq] at this
    subst this
    rfl

/-! ## Codes in the place of names -/

theorem fill_reduce {σ : Fill} (hσ : ∀ x, isPh x = false → σ x = none) (f : Fn) :
    fillSs σ f.reduceStmts = f.reduceWith (fillA σ r_) (fillA σ a0_) (fillA σ a1_) (fillA σ a2_) := by
  have h1 : σ "None" = none := hσ _ (by decide)
  cases f <;> simp only [Fn.reduceStmts, Fn.reduceWith, fillSs, fillS, fillA, fillAs, h1]

theorem fill_first {σ : Fill} (hσ : ∀ x, isPh x = false → σ x = none) (f : Fn) :
    fillSs σ f.firstStmts = f.firstWith (fillA σ r_) (fillA σ a0_) (fillA σ a1_) := by
  have h1 : σ "None" = none := hσ _ (by decide)
  have h2 : σ "_d" = none := hσ _ (by decide)
  have h3 : σ "defaultdict" = none := hσ _ (by decide)
  have h4 : σ "list" = none := hσ _ (by decide)
  have h5 : σ "dict" = none := hσ _ (by decide)
  have h6 : σ "int" = none := hσ _ (by decide)
  cases f <;> simp only [Fn.firstStmts, Fn.firstWith, fillSs, fillS, fillA, fillAs, h1, h2, h3, h4, h5, h6]

theorem codeFill_plain (var : List Tok × Ast) (args : List (List Tok × Ast × Bool)) :
    ∀ x, isPh x = false → codeFill var args x = none := by
  intro x hx
  have h1 : x ≠ resPh := by rintro rfl; revert hx; decide
  have h2 : x ≠ argPh 0 := by rintro rfl; revert hx; decide
  have h3 : x ≠ argPh 1 := by rintro rfl; revert hx; decide
  have h4 : x ≠ argPh 2 := by rintro rfl; revert hx; decide
  simp [codeFill, h1, h2, h3, h4]

theorem codeFill_res (var : List Tok × Ast) (args : List (List Tok × Ast × Bool)) :
    codeFill var args resPh = some (var.1, var.2, true) := by
  simp [codeFill]

theorem codeFill_arg (var : List Tok × Ast) (args : List (List Tok × Ast × Bool)) {n : Nat} (hn : n < 3) :
    codeFill var args (argPh n) = args[n]? := by
  have h0 : argPh 0 ≠ resPh := by decide
  have h1 : argPh 1 ≠ resPh := by decide
  have h2 : argPh 2 ≠ resPh := by decide
  have h3 : argPh 1 ≠ argPh 0 := by decide
  have h4 : argPh 2 ≠ argPh 0 := by decide
  have h5 : argPh 2 ≠ argPh 1 := by decide
  match n, hn with
  | 0, _ => simp [codeFill, h0]
  | 1, _ => simp [codeFill, h1, h3]
  | 2, _ => simp [codeFill, h2, h4, h5]

/-- An argument of a template, its tokens and its tree, and whether lookups may follow it. -/
def ArgOk (c : List Char) (s : List Tok × Ast × Bool) : Prop := Lx c s.1 ∧ Rd s.1 s.2.1 ∧ (s.2.2 = true → Pr s.1 s.2.1)

theorem All2.get {A B : Type} {R : A → B → Prop} {as : List A} {bs : List B} (h : All2 R as bs) : ∀ {n : Nat} {a : A},
    as[n]? = some a → ∃ b, bs[n]? = some b ∧ R a b := by
  induction h with
  | nil => intro n a h; simp at h
  | cons h1 _ ih =>
    intro n a hn
    cases n with
    | zero =>
      simp only [List.getElem?_cons_zero, Option.some.injEq] at hn
      subst hn
      exact ⟨_, rfl, h1⟩
    | succ n => simpa using ih (by simpa using hn)

theorem All2.getR {A B : Type} {R : A → B → Prop} {as : List A} {bs : List B} (h : All2 R as bs) : ∀ {n : Nat} {b : B},
    bs[n]? = some b → ∃ a, as[n]? = some a ∧ R a b := by
  induction h with
  | nil => intro n a h; simp at h
  | cons h1 _ ih =>
    intro n a hn
    cases n with
    | zero =>
      simp only [List.getElem?_cons_zero, Option.some.injEq] at hn
      subst hn
      exact ⟨_, rfl, h1⟩
    | succ n => simpa using ih (by simpa using hn)

/-- A formatted template with the variable of a reduce is read as its statements with the trees of the codes. -/
theorem place_part (m : Bool) (j : Nat) {cs : List (List Char)} {args : List (List Tok × Ast × Bool)}
    (hc : All2 ArgOk cs args) (hlen : args.length ≤ 3) {ss : List String} {b : List Stmt}
    (h : ckIs (args.map (·.2.2)) ss b = true) {s : List Char}
    (hs : formatStatements (placeText m j).toList ss cs = some s) :
    ∃ ts, Part 0 s ts (fillSs (codeFill (placeToks m j, place m j) args) b) := by
  obtain ⟨ts, ht⟩ := ckIs_template h
  rw [← mask_ckTemplate (sameMask_codeFill (placeToks m j, place m j) args)] at ht
  have hv := place_code m j
  refine ⟨_, template_part ?_ ⟨codeFill_plain _ _, ?_, ?_⟩ ?_ (placeText_noBrace m j) (place_startsOk m j) ht hs⟩
  · intro x us a q hx
    by_cases h1 : x = resPh
    · subst h1
      rw [codeFill_res] at hx
      cases hx
      exact ⟨hv.pr.rd, fun _ => hv.pr⟩
    · have hn : ∃ n, n < 3 ∧ x = argPh n := by
        by_cases h2 : x = argPh 0
        · exact ⟨0, by decide, h2⟩
        by_cases h3 : x = argPh 1
        · exact ⟨1, by decide, h3⟩
        by_cases h4 : x = argPh 2
        · exact ⟨2, by decide, h4⟩
        simp [codeFill, h1, h2, h3, h4] at hx
      obtain ⟨n, hn, rfl⟩ := hn
      rw [codeFill_arg _ _ hn] at hx
      obtain ⟨c, _, hc⟩ := hc.getR hx
      exact hc.2
  · exact ⟨_, _, codeFill_res _ _, place_lxDot m j⟩
  · intro n c hn
    obtain ⟨p, hp, ha⟩ := hc.get hn
    have hlt : n < 3 := by
      have := (List.getElem?_eq_some_iff.1 hp).1
      omega
    obtain ⟨us, a, q⟩ := p
    exact ⟨us, a, q, by rw [codeFill_arg _ _ hlt, hp], ha.1⟩
  · intro us a q hx
    rw [codeFill_res] at hx
    cases hx
    exact hv.target

/-! ## Blocks -/

/-- The reducers which are modelled with `initial`: their `reduce` does not look anything up in it. -/
def Fn.takesInitial : Fn → Bool
  | .sum | .sumOrNone | .max | .min | .count | .first | .last => true
  | _ => false

theorem initial_reads (f : Fn) (h : f.takesInitial = true) :
    ckIs [false, false] f.template.reduce f.reduceStmts = true := by
  cases f <;> first | exact absurd h Bool.false_ne_true | decide +kernel

/-- The codes of a reduce and their trees: of `initial`, the expression, the additional argument, and the condition. -/
structure CodesOk (f : Fn) (c : Codes) (ia : Option Ast) (xa ya : Ast) (cond : Option CondSrc) : Prop where
  args : ∃ cx xt rest, c.args = cx :: rest ∧ Code cx.toList xt xa ∧
    if f.arity = 2 then ∃ cy yt, rest = [cy] ∧ Code cy.toList yt ya else rest = []
  initial : match c.initial, ia with
    | none, none => True
    | some i, some a => f.takesInitial = true ∧ ∃ it, Code i.toList it a
    | _, _ => False
  cond : match c.cond, cond with
    | none, none => True
    | some s, some d => Lx s.toList d.toks ∧ Ex d.toks d.tree
    | _, _ => False

theorem CodesOk.length {f : Fn} {c : Codes} {ia : Option Ast} {xa ya : Ast} {cond : Option CondSrc}
    (h : CodesOk f c ia xa ya cond) : c.args.length = f.arity := by
  obtain ⟨cx, xt, rest, h1, _, h2⟩ := h.args
  rw [h1]
  split at h2
  · next ha =>
    obtain ⟨cy, yt, rfl, _⟩ := h2
    rw [ha]
    rfl
  · next ha =>
    subst h2
    cases f <;> first | rfl | exact absurd rfl ha

theorem reduceWith_one {f : Fn} (h : f.arity ≠ 2) (r a0 a1 a2 a2' : Ast) :
    f.reduceWith r a0 a1 a2 = f.reduceWith r a0 a1 a2' := by
  cases f <;> first | rfl | exact absurd rfl h

theorem firstWith_one {f : Fn} (h : f.arity ≠ 2) (r a0 a1 a1' : Ast) :
    f.firstWith r a0 a1 = f.firstWith r a0 a1' := by
  cases f <;> first | rfl | exact absurd rfl h

theorem arity_two (f : Fn) : f.two = decide (f.arity = 2) := by
  cases f <;> rfl

theorem takes_arity {f : Fn} (h : f.takesInitial = true) : f.arity ≠ 2 := by
  cases f <;> first | exact absurd h Bool.false_ne_true | decide

/-- The statements of a block under `is _none`. -/
def Fn.initWith (f : Fn) (r : Ast) (ia : Option Ast) (xa ya : Ast) : List Stmt :=
  match ia with
  | none => f.firstWith r xa ya
  | some i => f.reduceWith r i xa ya

/-- The text of a block with the variable of a reduce is read as the statements of the reducer. -/
theorem fn_block {f : Fn} {c : Codes} {ia : Option Ast} {xa ya : Ast} {cond : Option CondSrc}
    (hc : CodesOk f c ia xa ya cond) (m : Bool) (j flag : Nat) {b : BlockText}
    (h : genBlock f.template c (placeText m j) flag = some b) :
    ∃ q, BlockReads b q ∧ q.va = place m j ∧ q.flag = flag ∧ q.cond = cond ∧
      q.initS = f.initWith (place m j) ia xa ya ∧ q.twoS = f.reduceWith (place m j) (place m j) xa ya ∧
      b.cond = c.cond.map String.toList := by
  simp only [genBlock, Option.bind_eq_some_iff, Option.map_eq_some_iff] at h
  obtain ⟨init, h1, two, h2, rfl⟩ := h
  obtain ⟨cx, xt, rest, ha, hx, hrest⟩ := hc.args
  have hv := place_code m j
  have pv : ArgOk (placeText m j).toList (placeToks m j, place m j, true) := ⟨hv.lx, hv.pr.rd, fun _ => hv.pr⟩
  have px : ArgOk cx.toList (xt, xa, false) := ⟨hx.lx, hx.rd, by simp⟩
  -- the statements which combine
  have t2 : ∃ ts, Part 0 two ts (f.reduceWith (place m j) (place m j) xa ya) := by
    simp only [Template.genTwo, ha, List.map_cons] at h2
    have hr := reduce_reads f
    rw [Fn.reduceMask, arity_two] at hr
    split at hrest
    · next h2' =>
      obtain ⟨cy, yt, rfl, hy⟩ := hrest
      have py : ArgOk cy.toList (yt, ya, false) := ⟨hy.lx, hy.rd, by simp⟩
      simp only [h2', decide_true, if_true] at hr
      obtain ⟨ts, hp⟩ := place_part m j (.cons pv (.cons px (.cons py .nil))) (by simp) hr h2
      rw [fill_reduce (codeFill_plain _ _)] at hp
      exact ⟨ts, hp⟩
    · next h2' =>
      subst hrest
      simp only [h2', decide_false, Bool.false_eq_true, if_false] at hr
      obtain ⟨ts, hp⟩ := place_part m j (.cons pv (.cons px .nil)) (by simp) hr h2
      rw [fill_reduce (codeFill_plain _ _), reduceWith_one h2' _ _ _ _ ya] at hp
      exact ⟨ts, hp⟩
  -- the statements which start
  have t1 : ∃ ts, Part 0 init ts (f.initWith (place m j) ia xa ya) := by
    have hi := hc.initial
    cases hci : c.initial with
    | none =>
      rw [hci] at hi
      cases ia with
      | some a => exact hi.elim
      | none =>
        rw [hci] at h1
        simp only [Template.genInitial, ha, List.map_cons, Option.map_none] at h1
        have hr := first_reads f
        rw [Fn.firstMask, arity_two] at hr
        split at hrest
        · next h2' =>
          obtain ⟨cy, yt, rfl, hy⟩ := hrest
          have py : ArgOk cy.toList (yt, ya, false) := ⟨hy.lx, hy.rd, by simp⟩
          simp only [h2', decide_true, if_true] at hr
          obtain ⟨ts, hp⟩ := place_part m j (.cons px (.cons py .nil)) (by simp) hr h1
          rw [fill_first (codeFill_plain _ _)] at hp
          exact ⟨ts, hp⟩
        · next h2' =>
          subst hrest
          simp only [h2', decide_false, Bool.false_eq_true, if_false] at hr
          obtain ⟨ts, hp⟩ := place_part m j (.cons px .nil) (by simp) hr h1
          rw [fill_first (codeFill_plain _ _), firstWith_one h2' _ _ _ ya] at hp
          exact ⟨ts, hp⟩
    | some i =>
      rw [hci] at hi
      cases ia with
      | none => exact hi.elim
      | some a =>
        obtain ⟨ht, it, hia⟩ := hi
        rw [hci] at h1
        simp only [Template.genInitial, ha, List.map_cons, Option.map_some] at h1
        have h2' := takes_arity ht
        simp only [h2', if_false] at hrest
        subst hrest
        have pi : ArgOk i.toList (it, a, false) := ⟨hia.lx, hia.rd, by simp⟩
        obtain ⟨ts, hp⟩ := place_part m j (.cons pi (.cons px .nil)) (by simp) (initial_reads f ht) h1
        rw [fill_reduce (codeFill_plain _ _), reduceWith_one h2' _ _ _ _ ya] at hp
        exact ⟨ts, hp⟩
  obtain ⟨ts1, t1⟩ := t1
  obtain ⟨ts2, t2⟩ := t2
  refine ⟨⟨placeToks m j, place m j, ts1, _, ts2, _, cond, flag⟩, ⟨hv, t1, t2, rfl, ?_⟩, rfl, rfl, rfl, rfl, rfl, rfl⟩
  have := hc.cond
  cases hcc : c.cond with
  | none =>
    rw [hcc] at this
    cases cond with
    | none => trivial
    | some d => exact this.elim
  | some s =>
    rw [hcc] at this
    cases cond with
    | none => exact this.elim
    | some d => exact this

end Verif.Stmt
