import Verif.Stmt.CustomProps
import Verif.Inline.Props

/-!
# Stmt: reduces with inline expressions

`c.reduce(c.inline_expr("{0} + {1}"), <expr>, initial=…, default=…)`: the text which is generated for it, how it is read, and
what it does.

Source: `/repo/src/convtools/aggregations.py` lines 23-42, 116-176, 788-945, `/repo/src/convtools/base.py` 1418-1464.
-/

set_option autoImplicit false

namespace Verif.Stmt

open Verif.Text Verif.Agg Verif.Reducers

variable {V E : Type}

/-! ## The text -/

/-- `call_with_params` (aggregations.py 23-32) for an inline expression and two arguments: `pass_args` (base.py 1437-1452)
and the text (base.py 1454-1464).  Simplification: where `str.format` raises there is no text in Python; such templates are
excluded by `IRed.Reads`. -/
def applyText (code a b : String) : String := (Inline.inlineText code ⟨[a, b], []⟩).getD ""

/-- A `c.reduce(c.inline_expr(…), expr, initial=…).filter(…)` (788-914), the result of the code generation for its parts.
The parts are those of a reduce with a function, where `parts.g` is the format string in the place of the name of the
function; `tree` is how the format string is read with names in the place of its arguments.  Simplification: no
`initial_from_first` and no additional arguments. -/
structure IRed (V E : Type) where
  parts : CRed V E
  tree : Ast

/-- `_ReducerExpression.gen_reduce_initial` (123-154). -/
def IRed.initText (u : IRed V E) (var : String) : String :=
  var ++ " = " ++ (match u.parts.initial with
    | none => u.parts.code
    | some i => applyText u.parts.g i u.parts.code)

/-- `_ReducerExpression.gen_reduce_two` (156-176). -/
def IRed.twoText (u : IRed V E) (var : String) : String := var ++ " = " ++ applyText u.parts.g var u.parts.code

/-- `Reduce.gen_reduce_code_block` (876-914).  Simplification: the texts of the parts do not depend on the place where
they are generated. -/
def IRed.block (u : IRed V E) (var : String) (flag : Nat) : BlockText where
  var := var.toList
  init := (u.initText var).toList
  two := (u.twoText var).toList
  cond := u.parts.cond.map String.toList
  flag := flag

/-- A reduce with an inline expression has `unconditional_init=False` (60, 800). -/
def IRed.text (u : IRed V E) : TRed := ⟨u.block, false⟩

/-- `code_hash` (643-648) of reduce number `i`. -/
def IRed.hash (m : Bool) (i : Nat) (u : IRed V E) : String := String.ofList (codeHash (textOf m i u.text))

/-! ## How it is read -/

/-- The tree of the inline expression for the trees of its arguments (nothing in the repository: how the text of base.py
1454-1464 is read). -/
def applyTree (tree a b : Ast) : Ast := fillA (Inline.fillOf ⟨[⟨"", [], a, false⟩, ⟨"", [], b, false⟩], []⟩) tree

mutual

theorem fillA_trees {σ τ : Fill} (h : ∀ x, (σ x).map (·.2.1) = (τ x).map (·.2.1)) : ∀ a, fillA σ a = fillA τ a
  | .name x => by
    have := h x
    simp only [fillA]
    cases h1 : σ x <;> cases h2 : τ x <;> rw [h1, h2] at this <;> simp_all
  | .num n => rfl
  | .str s => rfl
  | .attr a s => by simp only [fillA, fillA_trees h a]
  | .sub a b => by simp only [fillA, fillA_trees h a, fillA_trees h b]
  | .call f as ks => by simp only [fillA, fillA_trees h f, fillAs_trees h as]
  | .neg a => by simp only [fillA, fillA_trees h a]
  | .bin o a b => by simp only [fillA, fillA_trees h a, fillA_trees h b]
  | .cmp a os bs => by simp only [fillA, fillA_trees h a, fillAs_trees h bs]
  | .not a => by simp only [fillA, fillA_trees h a]
  | .bool k as => by simp only [fillA, fillAs_trees h as]
  | .ifexp a b c => by simp only [fillA, fillA_trees h a, fillA_trees h b, fillA_trees h c]
  | .display k as => by simp only [fillA, fillAs_trees h as]
  | .comp k es v it cs => by simp only [fillA, fillAs_trees h es, fillA_trees h it, fillAs_trees h cs]

theorem fillAs_trees {σ τ : Fill} (h : ∀ x, (σ x).map (·.2.1) = (τ x).map (·.2.1)) : ∀ as, fillAs σ as = fillAs τ as
  | [] => rfl
  | a :: as => by simp only [fillAs, fillA_trees h a, fillAs_trees h as]

end

theorem get_pair {α : Type} (x y : α) (k : List Char) :
    (⟨[x, y], []⟩ : Inline.Args α).get k =
      if Inline.isNumber k then (if Inline.digits k = 0 then some x else if Inline.digits k = 1 then some y else none) else none := by
  unfold Inline.Args.get
  split
  · rcases h : Inline.digits k with _ | _ | n <;> simp
  · rfl

theorem fill_pair (p q : Inline.Operand) (tree : Ast) :
    fillA (Inline.fillOf ⟨[p, q], []⟩) tree = applyTree tree p.tree q.tree := by
  refine fillA_trees (fun x => ?_) tree
  unfold Inline.fillOf
  split
  · simp only [get_pair]
    split <;> [skip; rfl]
    split <;> [rfl; skip]
    split <;> rfl
  · rfl

/-- The format string can be filled with two arguments, and it is read as `tree`. -/
structure FormatOk (code : String) (tree : Ast) : Prop where
  filled : ∀ a b, ∃ s, Inline.inlineText code ⟨[a, b], []⟩ = some s
  reads : Inline.Template code ⟨[Inline.bare, Inline.bare], []⟩ tree

theorem put_some {as : Inline.Args String} : ∀ (l : List Inline.TPart),
    (∀ k, Inline.TPart.code k ∈ l → (as.get k).isSome) → ∃ t, Inline.put as l = some t
  | [], _ => ⟨[], rfl⟩
  | .ch c :: l, h => by
    obtain ⟨t, ht⟩ := put_some l (fun k hk => h k (List.mem_cons_of_mem _ hk))
    exact ⟨c :: t, by simp [Inline.put, ht]⟩
  | .code k :: l, h => by
    obtain ⟨t, ht⟩ := put_some l (fun k hk => h k (List.mem_cons_of_mem _ hk))
    obtain ⟨a, ha⟩ := Option.isSome_iff_exists.1 (h k List.mem_cons_self)
    exact ⟨a.toList ++ t, by simp [Inline.put, ht, ha]⟩

/-- All fields are numbers below two. -/
def twoFields (l : List Inline.TPart) : Bool :=
  l.all fun p =>
    match p with
    | .ch _ => true
    | .code k => Inline.isNumber k && decide (Inline.digits k < 2)

theorem format_ok {code : String} {l : List Inline.TPart} {tree : Ast} (hp : Inline.parts code = some l) (h2 : twoFields l = true)
    (ht : Inline.template 60 code ⟨[Inline.bare, Inline.bare], []⟩ = some tree) : FormatOk code tree where
  reads := Inline.template_sound ht
  filled := fun a b => by
    obtain ⟨t, ht⟩ := put_some (as := ⟨[a, b], []⟩) l (fun k hk => by
      have := List.all_eq_true.1 h2 _ hk
      simp only [Bool.and_eq_true, decide_eq_true_eq] at this
      rw [get_pair, if_pos this.1]
      rcases (by omega : Inline.digits k = 0 ∨ Inline.digits k = 1) with h | h <;> simp [h])
    exact ⟨"(" ++ String.ofList t ++ ")", by simp [Inline.inlineText, hp, ht]⟩

theorem apply_code {code a b : String} {tree : Ast} (h : FormatOk code tree) {at_ bt : List Tok} {aa ba : Ast}
    (ha : Code a.toList at_ aa) (hb : Code b.toList bt ba) :
    ∃ ts, Code (applyText code a b).toList ts (applyTree tree aa ba) := by
  obtain ⟨s, hs⟩ := h.filled a b
  have ho : ∀ {a : String} {at_ : List Tok} {aa : Ast}, Code a.toList at_ aa → (⟨a, at_, aa, false⟩ : Inline.Operand).Ok :=
    fun h => ⟨fun cs h1 h2 => h.lx cs h1 (h2 rfl), h.rd, fun h => by cases h⟩
  obtain ⟨ts, h1, h2⟩ := Inline.inline_reads (as := ⟨[⟨a, at_, aa, false⟩, ⟨b, bt, ba, false⟩], []⟩) (s := s) (code := code)
    (fun o hm => by
      simp only [Inline.Args.all, List.map_nil, List.append_nil, List.mem_cons, List.not_mem_nil, or_false] at hm
      rcases hm with rfl | rfl
      · exact ho ha
      · exact ho hb)
    (Inline.template_bare (as := ⟨[⟨a, at_, aa, false⟩, ⟨b, bt, ba, false⟩], []⟩) h.reads) hs
  rw [fill_pair] at h2
  refine ⟨ts, ?_, h2.rd⟩
  simp only [applyText, hs, Option.getD_some]
  exact Lx.of_reads h1

/-- How the codes of a reduce are read. -/
structure IRed.Reads (u : IRed V E) : Prop where
  format : FormatOk u.parts.g u.tree
  x : ∃ xt, Code u.parts.code.toList xt u.parts.xa
  initial : match u.parts.initial, u.parts.ia with
    | none, none => True
    | some i, some a => ∃ it, Code i.toList it a
    | _, _ => False
  cond : match u.parts.cond, u.parts.condS with
    | none, none => True
    | some s, some d => Lx s.toList d.toks ∧ Ex d.toks d.tree
    | _, _ => False

/-- The statement under `is _none` (how the text of 123-154 is read). -/
def IRed.initS (u : IRed V E) (va : Ast) : Stmt :=
  match u.parts.ia with
  | none => .assign [va] u.parts.xa
  | some i => .assign [va] (applyTree u.tree i u.parts.xa)

/-- The other statement (how the text of 156-176 is read). -/
def IRed.twoS (u : IRed V E) (va : Ast) : Stmt := .assign [va] (applyTree u.tree va u.parts.xa)

theorem inline_block {u : IRed V E} (h : u.Reads) (m : Bool) (j flag : Nat) :
    ∃ q, BlockReads (u.block (placeText m j) flag) q ∧ q.va = place m j ∧ q.flag = flag ∧ q.cond = u.parts.condS ∧
      q.initS = [u.initS (place m j)] ∧ q.twoS = [u.twoS (place m j)] := by
  have hv := place_code m j
  obtain ⟨xt, hx⟩ := h.x
  obtain ⟨as2, c2⟩ := apply_code h.format ⟨hv.lx, hv.pr.rd⟩ hx
  obtain ⟨ts2, t2⟩ := assign_part m j c2
  have t1 : ∃ ts, Part 0 (u.initText (placeText m j)).toList ts [u.initS (place m j)] := by
    have hi := h.initial
    simp only [IRed.initText, IRed.initS]
    cases h1 : u.parts.initial with
    | none =>
      rw [h1] at hi
      cases h2 : u.parts.ia with
      | some a => rw [h2] at hi; exact hi.elim
      | none => exact assign_part m j hx
    | some i =>
      rw [h1] at hi
      cases h2 : u.parts.ia with
      | none => rw [h2] at hi; exact hi.elim
      | some a =>
        rw [h2] at hi
        obtain ⟨it, hi⟩ := hi
        obtain ⟨as1, c1⟩ := apply_code h.format hi hx
        exact assign_part m j c1
  obtain ⟨ts1, t1⟩ := t1
  refine ⟨⟨placeToks m j, place m j, ts1, _, ts2, _, u.parts.condS, flag⟩, ⟨hv, t1, t2, rfl, ?_⟩, rfl, rfl, rfl, rfl, rfl⟩
  have := h.cond
  simp only [IRed.block]
  cases hc : u.parts.cond <;> cases hd : u.parts.condS <;> rw [hc, hd] at this <;> exact this

/-! ## Renaming the variable -/

/-- Where the text is, beside fields of the format string. -/
inductive Where
  | fresh
  | word
  | code

/-- Every field stands between separators: characters which are no part of names. -/
def spaced : Where → List Inline.TPart → Bool
  | _, [] => true
  | .fresh, .ch c :: l => spaced (if isSep c then .fresh else .word) l
  | .word, .ch c :: l => spaced (if isSep c then .fresh else .word) l
  | .code, .ch c :: l => isSep c && spaced .fresh l
  | .fresh, .code _ :: l => spaced .code l
  | _, .code _ :: _ => false

/-- The text of the format string beside its fields. -/
def literal : List Inline.TPart → List Char
  | [] => []
  | .ch c :: l => c :: literal l
  | .code _ :: l => ' ' :: literal l

/-- Fields of the format string are apart from its other words, and the variable does not occur in it. -/
def FieldsApart (code : String) (var : List Char) : Prop :=
  ∀ l, Inline.parts code = some l → spaced .fresh l = true ∧ ¬ var <:+: literal l

section
variable {old new : List Char} (ho : old ≠ []) (hs : ∀ c ∈ old, isSep c = false) {as bs : Inline.Args String}
  (hab : ∀ k a, as.get k = some a → ∃ b, bs.get k = some b ∧ replaceAll old new a.toList = b.toList)
include ho hs hab

theorem put_renamed : ∀ (l : List Inline.TPart) (t : List Char), Inline.put as l = some t → ∃ t', Inline.put bs l = some t' ∧
    (∀ w, spaced .word l = true → ¬ old <:+: w ++ literal l → replaceAll old new (w ++ t) = w ++ t') ∧
    (spaced .fresh l = true → ¬ old <:+: literal l → replaceAll old new t = t') ∧
    (∀ v v', replaceAll old new v = v' → spaced .code l = true → ¬ old <:+: literal l →
      replaceAll old new (v ++ t) = v' ++ t')
  | [], t, h => by
    simp only [Inline.put, Option.some.injEq] at h
    subst h
    refine ⟨[], rfl, ?_, ?_, ?_⟩
    · intro w _ hw
      rw [literal] at hw
      exact replaceAll_free hw
    · intro _ _
      exact replaceAll_nil
    · intro v v' hv _ _
      rw [List.append_nil, List.append_nil]
      exact hv
  | .ch c :: l, t, h => by
    simp only [Inline.put, Option.map_eq_some_iff] at h
    obtain ⟨t, ht, rfl⟩ := h
    obtain ⟨t', h0, h1, h2, h3⟩ := put_renamed l t ht
    have hlit : ∀ w : List Char, ¬ old <:+: w ++ literal (.ch c :: l) → ¬ old <:+: literal l := by
      intro w hw hi
      exact hw (hi.trans ⟨w ++ [c], [], by simp [literal]⟩)
    refine ⟨c :: t', by simp [Inline.put, h0], ?_, ?_, ?_⟩
    · intro w hw hi
      simp only [spaced] at hw
      cases hc : isSep c with
      | true =>
        rw [hc, if_pos rfl] at hw
        rw [replace_sep ho hs hc, h2 hw (hlit w hi), replaceAll_free]
        intro hj
        exact hi (hj.trans (List.prefix_append _ _).isInfix)
      | false =>
        rw [hc, if_neg (by simp)] at hw
        have := h1 (w ++ [c]) hw (by simpa [literal] using hi)
        simpa using this
    · intro hw hi
      simp only [spaced] at hw
      cases hc : isSep c with
      | true =>
        rw [hc, if_pos rfl] at hw
        have := replace_sep (new := new) ho hs hc [] t
        rw [h2 hw (hlit [] (by simpa using hi)), replaceAll_nil] at this
        simpa using this
      | false =>
        rw [hc, if_neg (by simp)] at hw
        have := h1 [c] hw (by simpa [literal] using hi)
        simpa using this
    · intro v v' hv hw hi
      simp only [spaced, Bool.and_eq_true] at hw
      rw [replace_sep ho hs hw.1, hv, h2 hw.2 (hlit [] (by simpa using hi))]
  | .code k :: l, t, h => by
    simp only [Inline.put, Option.bind_eq_some_iff, Option.map_eq_some_iff] at h
    obtain ⟨a, ha, t, ht, rfl⟩ := h
    obtain ⟨b, hb, hr⟩ := hab k a ha
    obtain ⟨t', h0, h1, h2, h3⟩ := put_renamed l t ht
    refine ⟨b.toList ++ t', by simp [Inline.put, h0, hb], ?_, ?_, ?_⟩
    · intro w hw
      cases hw
    · intro hw hi
      refine h3 _ _ hr (by simpa [spaced] using hw) (fun hj => hi (hj.trans ⟨[' '], [], by simp [literal]⟩))
    · intro v v' _ hw
      cases hw

theorem inlineText_renamed {code s : String} (hp : FieldsApart code old) (h : Inline.inlineText code as = some s) :
    ∃ s', Inline.inlineText code bs = some s' ∧ replaceAll old new s.toList = s'.toList := by
  unfold Inline.inlineText at h ⊢
  simp only [Option.map_eq_some_iff, Option.bind_eq_some_iff] at h
  obtain ⟨t, ⟨l, hl, ht⟩, rfl⟩ := h
  obtain ⟨t', h0, _, h2, _⟩ := put_renamed ho hs hab l t ht
  obtain ⟨p1, p2⟩ := hp l hl
  refine ⟨"(" ++ String.ofList t' ++ ")", by simp [hl, h0], ?_⟩
  simp only [String.toList_append, String.toList_ofList]
  rw [show "(".toList = ['('] by decide +kernel, show ")".toList = [')'] by decide +kernel]
  have e := replace_sep (new := new) ho hs (c := '(') (by decide) [] (t ++ ')' :: [])
  rw [replaceAll_nil, replace_sep ho hs (c := ')') (by decide), replaceAll_nil, h2 p1 p2] at e
  simpa using e

end

theorem apply_renamed {old new : List Char} (ho : old ≠ []) (hs : ∀ c ∈ old, isSep c = false) {code : String} {tree : Ast}
    (hf : FormatOk code tree) (hp : FieldsApart code old) {a a' b b' : String} (ha : replaceAll old new a.toList = a'.toList)
    (hb : replaceAll old new b.toList = b'.toList) :
    replaceAll old new (applyText code a b).toList = (applyText code a' b').toList := by
  obtain ⟨s, h⟩ := hf.filled a b
  obtain ⟨s', h', hr⟩ := inlineText_renamed (as := ⟨[a, b], []⟩) (bs := ⟨[a', b'], []⟩) ho hs (new := new) (by
    intro k x hx
    rw [get_pair] at hx ⊢
    split at hx <;> [skip; cases hx]
    next hn =>
    rw [if_pos hn]
    split at hx
    · next h0 => cases hx; exact ⟨a', by rw [if_pos h0], ha⟩
    · next h0 =>
      split at hx <;> [skip; cases hx]
      next h1 => cases hx; exact ⟨b', by rw [if_neg h0, if_pos h1], hb⟩) hp h
  simp only [applyText, h, h', Option.getD_some, hr]

/-- The texts of the reduce do not contain the text of the variable. -/
structure IRed.Free (u : IRed V E) (var : String) : Prop where
  format : FieldsApart u.parts.g var.toList
  code : ¬ var.toList <:+: u.parts.code.toList
  initial : ∀ i, u.parts.initial = some i → ¬ var.toList <:+: i.toList
  cond : ∀ c, u.parts.cond = some c → ¬ var.toList <:+: c.toList

theorem inline_renamed {u : IRed V E} (hf : FormatOk u.parts.g u.tree) {m : Bool} {i : Nat} (h : u.Free (placeText m i))
    (j flag : Nat) : renamed m i j (u.block (placeText m i) flag) = u.block (placeText m j) flag := by
  by_cases hij : placeText m i = placeText m j
  · rw [renamed, if_neg (by simpa using hij), ← hij]
  · rw [renamed, if_pos hij]
    have ho : (placeText m i).toList ≠ [] := by
      intro h0
      have := placeText_length m i
      rw [h0] at this
      simp at this
    have hs := placeText_sep m i
    have hv : replaceAll (placeText m i).toList (placeText m j).toList (placeText m i).toList = (placeText m j).toList := by
      have := replaceAll_hit (new := (placeText m j).toList) ho []
      simpa [replaceAll_nil] using this
    have hx := replaceAll_free (new := (placeText m j).toList) h.code
    simp only [rename, IRed.block, IRed.initText, IRed.twoText, String.toList_append, List.append_assoc,
      replace_assign ho hs, apply_renamed ho hs hf h.format hv hx]
    congr 1
    cases hi : u.parts.initial with
    | none => simp only [hx]
    | some i => simp only [apply_renamed ho hs hf h.format (replaceAll_free (h.initial i hi)) hx]

/-! ## What it does -/

/-- An inline expression read as `tree`, with the second argument `b` and the first one of `as`, gives what `F` gives for
their values (`none` is the sentinel); exceptions of the arguments are raised. -/
structure Computes (P : Py V E) (args : List String) (env : String → Option (PVal V)) (tree : Ast)
    (F : Option V → V → Except E V) (as : Ast → Prop) (b : Ast) : Prop where
  value : ∀ st a s v, as a → Ctx args env st → ev P a st = .ok (pval s, st) → ev P b st = .ok (.user v, st) →
    ev P (applyTree tree a b) st = (lift (F s v)).map (fun w => (.user w, st))
  first : ∀ st a e, as a → Ctx args env st → ev P a st = .error (some e) → ev P (applyTree tree a b) st = .error (some e)
  second : ∀ st a s e, as a → Ctx args env st → ev P a st = .ok (pval s, st) → ev P b st = .error (some e) →
    ev P (applyTree tree a b) st = .error (some e)

/-- An arithmetic operator between the arguments computes what the operator of Python does. -/
theorem bin_computes {P : Py V E} {o : Arith} {F : Option V → V → Except E V}
    (h : ∀ s v, P.arith o (pval s) (.user v) = (F s v).map .user) (args : List String) (env : String → Option (PVal V))
    (as : Ast → Prop) (b : Ast) : Computes P args env (.bin o (.name "{0") (.name "{1")) F as b := by
  have e : ∀ a b, applyTree (.bin o (.name "{0") (.name "{1")) a b = .bin o a b := by
    intro a b
    have h0 : ∀ x y : Inline.Operand, Inline.fillOf ⟨[x, y], []⟩ "{0" = some (x.toks, x.tree, x.prim) := fun x y => by
      rw [show "{0" = Inline.ph ['0'] by decide +kernel, Inline.fillOf_ph]
      rfl
    have h1 : ∀ x y : Inline.Operand, Inline.fillOf ⟨[x, y], []⟩ "{1" = some (y.toks, y.tree, y.prim) := fun x y => by
      rw [show "{1" = Inline.ph ['1'] by decide +kernel, Inline.fillOf_ph]
      rfl
    simp only [applyTree, fillA, h0, h1]
  refine ⟨?_, ?_, ?_⟩
  · intro st a s v _ _ h1 h2
    rw [e]
    simp only [ev, h1, h2, h]
    cases F s v <;> rfl
  · intro st a x _ _ h1
    rw [e]
    simp only [ev, h1]
  · intro st a s x _ _ h1 h2
    rw [e]
    simp only [ev, h1, h2]

/-- What is needed of reduce number `i`: its codes are read in this way, they mean what is said, and the name of its
variable does not occur in them. -/
structure IOk (P : Py V E) (condSem : String → V → Except E Bool) (args : List String) (env : String → Option (PVal V))
    (m : Bool) (fns : String → Option V → V → Except E V) (i : Nat) (u : IRed V E) : Prop where
  reads : u.Reads
  x : Gives P args env u.parts.xa u.parts.x
  initial : match u.parts.ia, u.parts.start with
    | none, none => True
    | some a, some s => Gives P args env a s
    | _, _ => False
  fn : Computes P args env u.tree (fns u.parts.g) (u.parts.firsts m) u.parts.xa
  cond : ∀ c d, u.parts.cond = some c → u.parts.condS = some d → Tests P (Ctx args env) d.tree (condSem c)
  free : u.Free (placeText m i)

/-- Reduce number `i` as the model of aggregations has it (aggregations.py 788-914): as for a function, with another text. -/
def IRed.red (fns : String → Option V → V → Except E V) (m : Bool) (i : Nat) (u : IRed V E) : Red V (DVal V) E :=
  { u.parts.red fns m i with hash := u.hash m i }

section
variable {P : Py V E} {condSem : String → V → Except E Bool} {args : List String} {env : String → Option (PVal V)}
  {m : Bool} {fns : String → Option V → V → Except E V} {i j : Nat} {u : IRed V E}

theorem inline_ok (h : IOk P condSem args env m fns i u) :
    ∃ q, RedOk P condSem args env m UserVal j (if m then 1 <<< i else 0) (u.red fns m i) (renamed m i j (textOf m i u.text)) q := by
  have ht : textOf m i u.text = u.block (placeText m i) (if m then 1 <<< i else 0) := rfl
  rw [ht, inline_renamed h.reads.format h.free]
  obtain ⟨q, h1, h2, h3, h4, h5, h6⟩ := inline_block h.reads m j (if m then 1 <<< i else 0)
  refine ⟨q, h1, h2, h3, ?_, ?_, ?_, ?_⟩
  · rw [h5]
    have hi := h.initial
    simp only [IRed.initS, IRed.red, CRed.red]
    cases hia : u.parts.ia with
    | none =>
      rw [hia] at hi
      cases hst : u.parts.start with
      | some s => rw [hst] at hi; exact hi.elim
      | none =>
        refine acts_assign (y := fun row _ => u.parts.x row) (fun _ _ => rfl) ?_
        intro st row s hc hr _
        exact h.x st row hc hr
    | some a =>
      rw [hia] at hi
      cases hst : u.parts.start with
      | none => rw [hst] at hi; exact hi.elim
      | some f =>
        rw [hst] at hi
        refine acts_assign (y := fun row _ => andThen (f row) (fun a => andThen (u.parts.x row) (fun v =>
          fns u.parts.g (some a) v))) ?_ ?_
        · intro row s
          simp only [andThen]
          cases f row <;> [rfl; (cases u.parts.x row <;> rfl)]
        · intro st row s hc hr _
          have e1 := hi st row hc hr
          have e2 := h.x st row hc hr
          cases hfr : f row with
          | error e =>
            rw [hfr] at e1
            exact h.fn.first st a e (.inr hia) hc e1
          | ok w =>
            rw [hfr] at e1
            cases hxr : u.parts.x row with
            | error e =>
              rw [hxr] at e2
              exact h.fn.second st a (some w) e (.inr hia) hc e1 e2
            | ok v =>
              rw [hxr] at e2
              exact h.fn.value st a (some w) v (.inr hia) hc e1 e2
  · rw [h6]
    refine acts_assign (y := fun row s => andThen (u.parts.x row) (fun v => fns u.parts.g s v)) ?_ ?_
    · intro row s
      simp only [IRed.red, CRed.red, undval_dval, andThen]
      cases u.parts.x row <;> rfl
    · intro st row s hc hr hh
      have e2 := h.x st row hc hr
      cases hxr : u.parts.x row with
      | error e =>
        rw [hxr] at e2
        exact h.fn.second st _ s e (.inl ⟨j, rfl⟩) hc hh.ev e2
      | ok v =>
        rw [hxr] at e2
        exact h.fn.value st _ s v (.inl ⟨j, rfl⟩) hc hh.ev e2
  · simp only [IRed.red, CRed.red, IRed.block]
    cases u.parts.cond with
    | none => rfl
    | some c => simp
  · intro c d hc hd
    rw [h4] at hd
    simp only [IRed.block] at hc
    cases hcc : u.parts.cond with
    | none => rw [hcc] at hc; cases hc
    | some c' =>
      rw [hcc, Option.map_some, Option.some.injEq] at hc
      subst hc
      rw [String.ofList_toList]
      exact h.cond _ _ hcc hd

end

/-- The reduces number `i` and the following ones (aggregations.py 1169-1199). -/
def inlinesFrom (fns : String → Option V → V → Except E V) (m : Bool) : Nat → List (IRed V E) → List (Red V (DVal V) E)
  | _, [] => []
  | i, u :: us => u.red fns m i :: inlinesFrom fns m (i + 1) us

theorem linked_inline {P : Py V E} {condSem : String → V → Except E Bool} {args : List String}
    {env : String → Option (PVal V)} {m : Bool} {fns : String → Option V → V → Except E V} :
    ∀ {us : List (IRed V E)} {i : Nat}, (∀ n u, us[n]? = some u → IOk P condSem args env m fns (i + n) u) →
      Linked P condSem args env m (fun _ => UserVal) i (us.map IRed.text) (inlinesFrom fns m i us)
  | [], _, _ => .nil
  | u :: us, i, h => by
    refine .cons rfl rfl (fun j _ => inline_ok (h 0 u rfl)) (linked_inline (fun n v hv => ?_))
    have := h (n + 1) v (by simpa using hv)
    rwa [Nat.add_assoc, Nat.add_comm 1 n]

theorem inlinesFrom_get (fns : String → Option V → V → Except E V) (m : Bool) : ∀ (us : List (IRed V E)) (i n : Nat),
    (inlinesFrom fns m i us)[n]? = us[n]?.map (IRed.red fns m (i + n))
  | [], _, _ => by simp [inlinesFrom]
  | u :: us, i, 0 => rfl
  | u :: us, i, n + 1 => by
    rw [inlinesFrom, List.getElem?_cons_succ, List.getElem?_cons_succ, inlinesFrom_get fns m us (i + 1) n,
      Nat.add_assoc, Nat.add_comm 1 n]

theorem inlinesFrom_length (fns : String → Option V → V → Except E V) (m : Bool) : ∀ (us : List (IRed V E)) (i : Nat),
    (inlinesFrom fns m i us).length = us.length
  | [], _ => rfl
  | _ :: us, i => by simp [inlinesFrom, inlinesFrom_length fns m us (i + 1)]

example : ((⟨⟨"{0} + {1}", "row_[0]", some "0", none, .num 0, some (.num 0), none, fun r => .ok r, none⟩, .num 0⟩ : IRed Nat Unit).block
    "agg_data_v0_" 1).init = "agg_data_v0_ = (0 + row_[0])".toList := by decide +kernel

/-- The text which is used in C35 is an instance. -/
example : ((⟨⟨"{0} - {1}", "row_[0]", none, none, .num 0, none, none, fun r => .ok r, none⟩, .num 0⟩ : IRed Nat Unit).block
    "agg_data_.v0" 0).two = (Agg.inlineText false 0 (fun a b => a ++ " - " ++ b) "row_[0]").two := by decide +kernel
example : ((⟨⟨"{0} - {1}", "row_[0]", none, none, .num 0, none, none, fun r => .ok r, none⟩, .num 0⟩ : IRed Nat Unit).block
    "agg_data_.v0" 0).init = (Agg.inlineText false 0 (fun a b => a ++ " - " ++ b) "row_[0]").init := by decide +kernel

end Verif.Stmt
