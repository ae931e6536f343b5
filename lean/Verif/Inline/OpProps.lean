import Verif.Inline.Operators
import Verif.Inline.Fields
import Verif.Inline.Props

/-!
# Inline: property C70

Operators written with conversions are the operators of the generated code.  The reference is Python's grammar
(`Verif/Text/Lex.lean`, `Verif/Text/Parse.lean`).
-/

set_option autoImplicit false

namespace Verif.Inline

open Verif.Text Verif.Expr

/-! ## Specification -/

/-- What `a OP b` means on expressions. -/
def PyOp.tree (a b : Ast) : PyOp → Ast
  | .getitem => .sub a b
  | .or => .bool false [a, b]
  | .and => .bool true [a, b]
  | .eq => .cmp a [.eq] [b]
  | .ne => .cmp a [.ne] [b]
  | .gt => .cmp a [.gt] [b]
  | .ge => .cmp a [.ge] [b]
  | .lt => .cmp a [.lt] [b]
  | .le => .cmp a [.le] [b]
  | .add => .bin .add a b
  | .mul => .bin .mul a b
  | .sub => .bin .sub a b
  | .truediv => .bin .div a b
  | .mod => .bin .mod a b
  | .floordiv => .bin .floorDiv a b

/-- Python's comparisons which have no overloadable operator (`is`, `is not`, `in` and `not in`). -/
def wordTree (a b : Ast) : Method → Option Ast
  | .is_ => some (.cmp a [.is] [b])
  | .is_not => some (.cmp a [.isNot] [b])
  | .in_ => some (.cmp a [.in_] [b])
  | .not_in => some (.cmp a [.notIn] [b])
  | _ => none

/-- What `OP a` means on expressions; `~` on conversions is `not`. -/
def PyOp1.tree (a : Ast) : PyOp1 → Ast
  | .invert => .not a
  | .neg => .neg a

/-! ## Texts -/

theorem text_two {op : List Char} (a b : String) :
    inlineText (String.ofList (writeAll [.pos 0, .lit op, .pos 1])) ⟨[a, b], []⟩ = some ("(" ++ a ++ String.ofList op ++ b ++ ")") := by
  rw [C69_fields _ _ (by simp [Piece.named]) (.inl (by simp [Piece.isAuto]))]
  simp only [meant, List.getElem?_cons_zero, List.getElem?_cons_succ, Option.map_some]
  refine congrArg some (String.toList_inj.mp ?_)
  simp

theorem text_one {op : List Char} (a : String) :
    inlineText (String.ofList (writeAll [.lit op, .pos 0])) ⟨[a], []⟩ = some ("(" ++ String.ofList op ++ a ++ ")") := by
  rw [C69_fields _ _ (by simp [Piece.named]) (.inl (by simp [Piece.isAuto]))]
  simp only [meant, List.getElem?_cons_zero, Option.map_some]
  refine congrArg some (String.toList_inj.mp ?_)
  simp

theorem text_sub (a b : String) : inlineText "{}[{}]" ⟨[a, b], []⟩ = some ("(" ++ a ++ "[" ++ b ++ "])") := by
  have h := C69_fields [.auto, .lit ['['], .auto, .lit [']']] ⟨[a, b], []⟩ (by simp [Piece.named]) (.inr (by simp [Piece.isPos]))
  rw [show String.ofList (writeAll [.auto, .lit ['['], .auto, .lit [']']]) = "{}[{}]" by decide +kernel] at h
  rw [h]
  simp only [meant, List.getElem?_cons_zero, List.getElem?_cons_succ, Option.map_some]
  refine congrArg some (String.toList_inj.mp ?_)
  simp

section
variable {Val : Type} {N : Names Val} {printable : Char → Bool}

/-- The expression of `Verif/Expr` for a method with an argument. -/
def Method.expr (a b : PyExpr Val) : Method → Option (PyExpr Val)
  | .getitem => some (.bin .index a b)
  | .or_ => some (.boolop false [a, b])
  | .and_ => some (.boolop true [a, b])
  | .not_ => none
  | .is_ => some (.bin .is a b)
  | .is_not => some (.bin .isNot a b)
  | .in_ => some (.bin .in_ a b)
  | .not_in => some (.bin .notIn a b)
  | .eq => some (.eqs [a, b])
  | .not_eq => some (.bin .ne a b)
  | .gt => some (.bin .gt a b)
  | .gte => some (.bin .ge a b)
  | .lt => some (.bin .lt a b)
  | .lte => some (.bin .le a b)
  | .neg => none
  | .add => some (.bin .add a b)
  | .mul => some (.bin .mul a b)
  | .sub => some (.bin .sub a b)
  | .div => some (.bin .div a b)
  | .mod => some (.bin .mod a b)
  | .floor_div => some (.bin .floorDiv a b)

/-- The text of a method with an argument, for operators between the codes. -/
theorem inline_two {t o : String} {op : List Char} (ht : t = String.ofList (writeAll [.pos 0, .lit op, .pos 1]))
    (ho : o = String.ofList op) (a b : String) : Made.text (.inline t) [a, b] = some ("(" ++ a ++ o ++ b ++ ")") := by
  subst ht ho
  exact text_two a b

/-- **C70** for the other properties: the text of an operator method is the text of the expression of `Verif/Expr`, so
what is proved there about operators is about the inline expressions of the code. -/
theorem C70_text (m : Method) (a b e : PyExpr Val) (h : m.expr a b = some e) :
    m.made.text [render N a, render N b] = some (render N e) := by
  cases m <;> simp only [Method.expr, Option.some.injEq, reduceCtorEq] at h <;> subst h <;>
    simp only [Method.made, render, renderAll, BinOp.text, Bool.false_eq_true, if_true, if_false]
  case getitem => exact text_sub _ _
  case or_ => rfl
  case and_ => rfl
  case eq => rfl
  case is_ => exact inline_two (op := [' ', 'i', 's', ' ']) (by decide +kernel) (by decide +kernel) _ _
  case is_not => exact inline_two (op := [' ', 'i', 's', ' ', 'n', 'o', 't', ' ']) (by decide +kernel) (by decide +kernel) _ _
  case in_ => exact inline_two (op := [' ', 'i', 'n', ' ']) (by decide +kernel) (by decide +kernel) _ _
  case not_in => exact inline_two (op := [' ', 'n', 'o', 't', ' ', 'i', 'n', ' ']) (by decide +kernel) (by decide +kernel) _ _
  case not_eq => exact inline_two (op := [' ', '!', '=', ' ']) (by decide +kernel) (by decide +kernel) _ _
  case gt => exact inline_two (op := [' ', '>', ' ']) (by decide +kernel) (by decide +kernel) _ _
  case gte => exact inline_two (op := [' ', '>', '=', ' ']) (by decide +kernel) (by decide +kernel) _ _
  case lt => exact inline_two (op := [' ', '<', ' ']) (by decide +kernel) (by decide +kernel) _ _
  case lte => exact inline_two (op := [' ', '<', '=', ' ']) (by decide +kernel) (by decide +kernel) _ _
  case add => exact inline_two (op := [' ', '+', ' ']) (by decide +kernel) (by decide +kernel) _ _
  case mul => exact inline_two (op := [' ', '*', ' ']) (by decide +kernel) (by decide +kernel) _ _
  case sub => exact inline_two (op := [' ', '-', ' ']) (by decide +kernel) (by decide +kernel) _ _
  case div => exact inline_two (op := [' ', '/', ' ']) (by decide +kernel) (by decide +kernel) _ _
  case mod => exact inline_two (op := [' ', '%', ' ']) (by decide +kernel) (by decide +kernel) _ _
  case floor_div => exact inline_two (op := [' ', '/', '/', ' ']) (by decide +kernel) (by decide +kernel) _ _

/-- **C70** for the other properties, with one operand: `not_` (635) and `neg` (689). -/
theorem C70_text_one (a : PyExpr Val) : Method.not_.made.text [render N a] = some (render N (.not a)) ∧
    Method.neg.made.text [render N a] = some (render N (.neg a)) := by
  constructor
  · have h := text_one (op := ['n', 'o', 't', ' ']) (render N a)
    rw [show String.ofList (writeAll [.lit ['n', 'o', 't', ' '], .pos 0]) = "not {0}" by decide +kernel] at h
    simp only [Method.made, Made.text, h, render]
    rw [show "(" ++ String.ofList ['n', 'o', 't', ' '] = "(not " by decide +kernel]
  · have h := text_one (op := ['-']) (render N a)
    rw [show String.ofList (writeAll [.lit ['-'], .pos 0]) = "-{0}" by decide +kernel] at h
    simp only [Method.made, Made.text, h, render]
    rw [show "(" ++ String.ofList ['-'] = "(-" by decide +kernel]

end

/-! ## Reading -/

theorem joined_text {t op : String} {o : List Char} (ho : op = String.ofList o)
    (ht : t = String.ofList (writeAll [.pos 0, .lit o, .pos 1])) (a b : String) :
    Made.text (.joined op) [a, b] = inlineText t ⟨[a, b], []⟩ := by
  subst ho ht
  rw [text_two]
  simp only [Made.text, Expr.join]
  refine congrArg some (String.toList_inj.mp ?_)
  simp

theorem fill_args (a b : Operand) : fillOf ⟨[a, b], []⟩ "{0" = some (a.toks, a.tree, a.prim) ∧
    fillOf ⟨[a, b], []⟩ "{1" = some (b.toks, b.tree, b.prim) := by
  constructor
  · rw [show "{0" = ph ['0'] by decide +kernel, fillOf_ph]; rfl
  · rw [show "{1" = ph ['1'] by decide +kernel, fillOf_ph]; rfl

theorem fill_arg (a : Operand) : fillOf ⟨[a], []⟩ "{0" = some (a.toks, a.tree, a.prim) := by
  rw [show "{0" = ph ['0'] by decide +kernel, fillOf_ph]; rfl

/-- A template with two operands, read with any operands. -/
theorem two_sound {t : String} {x : Ast} (ht : template 40 t ⟨[bare, bare], []⟩ = some x) (a b : Operand) :
    Template t ⟨[a, b], []⟩ x :=
  template_bare (as := ⟨[a, b], []⟩) (show Template t ⟨[bare, bare], []⟩ x from template_sound ht)

theorem one_sound {t : String} {x : Ast} (ht : template 40 t ⟨[bare], []⟩ = some x) (a : Operand) : Template t ⟨[a], []⟩ x :=
  template_bare (as := ⟨[a], []⟩) (show Template t ⟨[bare], []⟩ x from template_sound ht)

/-- Subscription needs an operand which allows lookups. -/
theorem sub_template (a b : Operand) (ha : a.prim = true) : Template "{}[{}]" ⟨[a, b], []⟩ (.sub (.name "{0") (.name "{1")) := by
  obtain ⟨h0, h1⟩ := fill_args a b
  refine ⟨[.code ['0'], .ch '[', .code ['1'], .ch ']'], [.name "{0", .lbr, .name "{1", .rbr, .rpar], 40, by decide +kernel,
    lexT_bare (d := fun _ => false) (by simp) (by decide +kernel), ?_, by decide +kernel⟩
  simp only [safe, okNext, noPh, noPhKw, noTrailer, h0, h1, ha]
  cases b.prim <;> rfl

/-- The text of an operator is read in front of anything. -/
def ReadsAs (s : Option String) (a : Ast) : Prop := ∃ t, s = some t ∧ ∃ o : Operand, o.Ok ∧ o.code = t ∧ o.tree = a ∧ o.prim = true

theorem two_reads {t : String} {a b : Operand} (ha : a.Ok) (hb : b.Ok) {x y : Ast} (ht : Template t ⟨[a, b], []⟩ x)
    {s : String} (hs : inlineText t ⟨[a.code, b.code], []⟩ = some s) (hx : fillA (fillOf ⟨[a, b], []⟩) x = y) :
    ReadsAs (inlineText t ⟨[a.code, b.code], []⟩) y := by
  subst hx
  refine ⟨s, hs, C69_nested_partial (fun o ho => ?_) ht hs⟩
  simp only [Args.all, List.map_nil, List.append_nil, List.mem_cons, List.not_mem_nil, or_false] at ho
  rcases ho with rfl | rfl <;> assumption

theorem one_reads {t : String} {a : Operand} (ha : a.Ok) {x y : Ast} (ht : Template t ⟨[a], []⟩ x)
    {s : String} (hs : inlineText t ⟨[a.code], []⟩ = some s) (hx : fillA (fillOf ⟨[a], []⟩) x = y) :
    ReadsAs (inlineText t ⟨[a.code], []⟩) y := by
  subst hx
  refine ⟨s, hs, C69_nested_partial (fun o ho => ?_) ht hs⟩
  simp only [Args.all, List.map_nil, List.append_nil, List.mem_cons, List.not_mem_nil, or_false] at ho
  exact ho ▸ ha

theorem op_reads {t : String} {o : List Char} (ht : t = String.ofList (writeAll [.pos 0, .lit o, .pos 1])) {x : Ast}
    (h : template 40 t ⟨[bare, bare], []⟩ = some x) {a b : Operand} (ha : a.Ok) (hb : b.Ok) {y : Ast}
    (hx : fillA (fillOf ⟨[a, b], []⟩) x = y) : ReadsAs (inlineText t ⟨[a.code, b.code], []⟩) y :=
  two_reads ha hb (two_sound h a b) (s := "(" ++ a.code ++ String.ofList o ++ b.code ++ ")") (by subst ht; exact text_two _ _) hx

theorem op1_reads {t : String} {o : List Char} (ht : t = String.ofList (writeAll [.lit o, .pos 0])) {x : Ast}
    (h : template 40 t ⟨[bare], []⟩ = some x) {a : Operand} (ha : a.Ok) {y : Ast}
    (hx : fillA (fillOf ⟨[a], []⟩) x = y) : ReadsAs (inlineText t ⟨[a.code], []⟩) y :=
  one_reads ha (one_sound h a) (s := "(" ++ String.ofList o ++ a.code ++ ")") (by subst ht; exact text_one _) hx

theorem joined_reads {op t : String} {o : List Char} (ho : op = String.ofList o)
    (ht : t = String.ofList (writeAll [.pos 0, .lit o, .pos 1])) {x : Ast} (h : template 40 t ⟨[bare, bare], []⟩ = some x)
    {a b : Operand} (ha : a.Ok) (hb : b.Ok) {y : Ast} (hx : fillA (fillOf ⟨[a, b], []⟩) x = y) :
    ReadsAs (Made.text (.joined op) [a.code, b.code]) y := by
  rw [joined_text ho ht]
  exact op_reads ht h ha hb hx

theorem method_reads (o : PyOp) {a b : Operand} (ha : a.Ok) (hb : b.Ok) (hp : o = .getitem → a.prim = true) :
    ReadsAs (o.method.made.text [a.code, b.code]) (o.tree a.tree b.tree) := by
  obtain ⟨h0, h1⟩ := fill_args a b
  cases o
  case getitem =>
    exact two_reads ha hb (sub_template a b (hp rfl)) (text_sub _ _) (by simp only [fillA, h0, h1, PyOp.tree])
  case or =>
    exact joined_reads (o := [' ', 'o', 'r', ' ']) (t := "{0} or {1}") (x := .bool false [.name "{0", .name "{1"]) (by decide +kernel) (by decide +kernel) (by decide +kernel) ha hb
      (by simp only [fillA, fillAs, h0, h1, PyOp.tree])
  case and =>
    exact joined_reads (o := [' ', 'a', 'n', 'd', ' ']) (t := "{0} and {1}") (x := .bool true [.name "{0", .name "{1"]) (by decide +kernel) (by decide +kernel) (by decide +kernel) ha hb
      (by simp only [fillA, fillAs, h0, h1, PyOp.tree])
  case eq =>
    exact joined_reads (o := [' ', '=', '=', ' ']) (t := "{0} == {1}") (x := .cmp (.name "{0") [.eq] [.name "{1"]) (by decide +kernel) (by decide +kernel) (by decide +kernel) ha hb
      (by simp only [fillA, fillAs, h0, h1, PyOp.tree])
  case ne =>
    exact op_reads (o := [' ', '!', '=', ' ']) (x := .cmp (.name "{0") [.ne] [.name "{1"]) (by decide +kernel) (by decide +kernel) ha hb
      (by simp only [fillA, fillAs, h0, h1, PyOp.tree])
  case gt =>
    exact op_reads (o := [' ', '>', ' ']) (x := .cmp (.name "{0") [.gt] [.name "{1"]) (by decide +kernel) (by decide +kernel) ha hb
      (by simp only [fillA, fillAs, h0, h1, PyOp.tree])
  case ge =>
    exact op_reads (o := [' ', '>', '=', ' ']) (x := .cmp (.name "{0") [.ge] [.name "{1"]) (by decide +kernel) (by decide +kernel) ha hb
      (by simp only [fillA, fillAs, h0, h1, PyOp.tree])
  case lt =>
    exact op_reads (o := [' ', '<', ' ']) (x := .cmp (.name "{0") [.lt] [.name "{1"]) (by decide +kernel) (by decide +kernel) ha hb
      (by simp only [fillA, fillAs, h0, h1, PyOp.tree])
  case le =>
    exact op_reads (o := [' ', '<', '=', ' ']) (x := .cmp (.name "{0") [.le] [.name "{1"]) (by decide +kernel) (by decide +kernel) ha hb
      (by simp only [fillA, fillAs, h0, h1, PyOp.tree])
  case add =>
    exact op_reads (o := [' ', '+', ' ']) (x := .bin .add (.name "{0") (.name "{1")) (by decide +kernel) (by decide +kernel) ha hb
      (by simp only [fillA, fillAs, h0, h1, PyOp.tree])
  case mul =>
    exact op_reads (o := [' ', '*', ' ']) (x := .bin .mul (.name "{0") (.name "{1")) (by decide +kernel) (by decide +kernel) ha hb
      (by simp only [fillA, fillAs, h0, h1, PyOp.tree])
  case sub =>
    exact op_reads (o := [' ', '-', ' ']) (x := .bin .sub (.name "{0") (.name "{1")) (by decide +kernel) (by decide +kernel) ha hb
      (by simp only [fillA, fillAs, h0, h1, PyOp.tree])
  case truediv =>
    exact op_reads (o := [' ', '/', ' ']) (x := .bin .div (.name "{0") (.name "{1")) (by decide +kernel) (by decide +kernel) ha hb
      (by simp only [fillA, fillAs, h0, h1, PyOp.tree])
  case mod =>
    exact op_reads (o := [' ', '%', ' ']) (x := .bin .mod (.name "{0") (.name "{1")) (by decide +kernel) (by decide +kernel) ha hb
      (by simp only [fillA, fillAs, h0, h1, PyOp.tree])
  case floordiv =>
    exact op_reads (o := [' ', '/', '/', ' ']) (x := .bin .floorDiv (.name "{0") (.name "{1")) (by decide +kernel) (by decide +kernel) ha hb
      (by simp only [fillA, fillAs, h0, h1, PyOp.tree])

theorem word_reads (m : Method) {a b : Operand} (ha : a.Ok) (hb : b.Ok) {y : Ast} (hm : wordTree a.tree b.tree m = some y) :
    ReadsAs (m.made.text [a.code, b.code]) y := by
  obtain ⟨h0, h1⟩ := fill_args a b
  cases m <;> simp only [wordTree, Option.some.injEq, reduceCtorEq] at hm <;> subst hm
  case is_ =>
    exact op_reads (o := [' ', 'i', 's', ' ']) (x := .cmp (.name "{0") [.is] [.name "{1"]) (by decide +kernel) (by decide +kernel) ha hb
      (by simp only [fillA, fillAs, h0, h1])
  case is_not =>
    exact op_reads (o := [' ', 'i', 's', ' ', 'n', 'o', 't', ' ']) (x := .cmp (.name "{0") [.isNot] [.name "{1"]) (by decide +kernel) (by decide +kernel) ha hb
      (by simp only [fillA, fillAs, h0, h1])
  case in_ =>
    exact op_reads (o := [' ', 'i', 'n', ' ']) (x := .cmp (.name "{0") [.in_] [.name "{1"]) (by decide +kernel) (by decide +kernel) ha hb
      (by simp only [fillA, fillAs, h0, h1])
  case not_in =>
    exact op_reads (o := [' ', 'n', 'o', 't', ' ', 'i', 'n', ' ']) (x := .cmp (.name "{0") [.notIn] [.name "{1"]) (by decide +kernel) (by decide +kernel) ha hb
      (by simp only [fillA, fillAs, h0, h1])

theorem method1_reads (o : PyOp1) {a : Operand} (ha : a.Ok) : ReadsAs (o.method.made.text [a.code]) (o.tree a.tree) := by
  have h0 := fill_arg a
  cases o
  case invert =>
    exact op1_reads (o := ['n', 'o', 't', ' ']) (x := .not (.name "{0")) (by decide +kernel) (by decide +kernel) ha
      (by simp only [fillA, h0, PyOp1.tree])
  case neg =>
    exact op1_reads (o := ['-']) (x := .neg (.name "{0")) (by decide +kernel) (by decide +kernel) ha
      (by simp only [fillA, h0, PyOp1.tree])

theorem ReadsAs.parses {s : Option String} {a : Ast} (h : ReadsAs s a) : ∃ t, s = some t ∧ ∀ b, Parses t b ↔ b = a := by
  obtain ⟨t, h1, o, h2, rfl, rfl, h5⟩ := h
  have h := parses_of_reads ⟨o.toks, by simpa [h5] using h2.reads, h2.pr h5⟩
  exact ⟨_, h1, fun b => ⟨fun hb => parses_unique hb h, fun hb => hb ▸ h⟩⟩

/-- **C70**: `a OP b` on conversions is Python's `OP` on their codes, in this order, and nothing else; neither precedence
nor associativity of operators inside the operands matters.  What is missing: a lookup in a negative number, for which the
claim is false (`C70_refuted_negative`). -/
theorem C70_operators_partial (o : PyOp) {a b : Operand} (ha : a.Ok) (hb : b.Ok) (hp : o = .getitem → a.prim = true) :
    ∃ s, o.method.made.text [a.code, b.code] = some s ∧ ∀ t, Parses s t ↔ t = o.tree a.tree b.tree :=
  (method_reads o ha hb hp).parses

/-- **C70** for `is_`, `is_not`, `in_` and `not_in`. -/
theorem C70_words (m : Method) {a b : Operand} (ha : a.Ok) (hb : b.Ok) {y : Ast} (hm : wordTree a.tree b.tree m = some y) :
    ∃ s, m.made.text [a.code, b.code] = some s ∧ ∀ t, Parses s t ↔ t = y :=
  (word_reads m ha hb hm).parses

/-- **C70** for `~a` and `-a`. -/
theorem C70_unary (o : PyOp1) {a : Operand} (ha : a.Ok) :
    ∃ s, o.method.made.text [a.code] = some s ∧ ∀ t, Parses s t ↔ t = o.tree a.tree :=
  (method1_reads o ha).parses

/-! ## Formulas

Any formula of operators over conversions. -/

/-- Formulas over operands, as written by the user. -/
inductive Formula
  | leaf (o : Operand)
  | two (o : PyOp) (a b : Formula)
  | word (m : Method) (a b : Formula)
  | one (o : PyOp1) (a : Formula)

/-- The code: methods are called from the inside to the outside (`/repo/src/convtools/base.py` 601-729). -/
def Formula.code : Formula → Option String
  | .leaf o => some o.code
  | .two o a b => a.code.bind fun s => b.code.bind fun t => o.method.made.text [s, t]
  | .word m a b => a.code.bind fun s => b.code.bind fun t => m.made.text [s, t]
  | .one o a => a.code.bind fun s => o.method.made.text [s]

/-- The expression meant. -/
def Formula.tree : Formula → Option Ast
  | .leaf o => some o.tree
  | .two o a b => a.tree.bind fun s => b.tree.map fun t => o.tree s t
  | .word m a b => a.tree.bind fun s => b.tree.bind fun t => wordTree s t m
  | .one o a => a.tree.map o.tree

/-- The formula is not a single operand, or one which allows lookups. -/
def Formula.prim : Formula → Bool
  | .leaf o => o.prim
  | _ => true

/-- No lookup in a bare number. -/
def Formula.safe : Formula → Bool
  | .leaf _ => true
  | .two o a b => (o != .getitem || a.prim) && a.safe && b.safe
  | .word _ a b => a.safe && b.safe
  | .one _ a => a.safe

/-- All operands. -/
def Formula.leaves : Formula → List Operand
  | .leaf o => [o]
  | .two _ a b => a.leaves ++ b.leaves
  | .word _ a b => a.leaves ++ b.leaves
  | .one _ a => a.leaves

theorem formula_reads : ∀ (f : Formula) (y : Ast), (∀ o ∈ f.leaves, o.Ok) → f.safe = true → f.tree = some y →
    ∃ o : Operand, o.Ok ∧ f.code = some o.code ∧ o.tree = y ∧ (f.prim = true → o.prim = true)
  | .leaf o, y, hl, _, ht => by
    cases ht
    exact ⟨o, hl o (by simp [Formula.leaves]), rfl, rfl, id⟩
  | .two o a b, y, hl, hs, ht => by
    simp only [Formula.tree, Option.bind_eq_some_iff, Option.map_eq_some_iff] at ht
    obtain ⟨s, h1, t, h2, rfl⟩ := ht
    simp only [Formula.safe, Bool.and_eq_true, Bool.or_eq_true, bne_iff_ne, ne_eq] at hs
    obtain ⟨⟨h3, h4⟩, h5⟩ := hs
    obtain ⟨p, p1, p2, rfl, p4⟩ := formula_reads a s (fun o ho => hl o (by simp [Formula.leaves, ho])) h4 h1
    obtain ⟨q, q1, q2, rfl, q4⟩ := formula_reads b t (fun o ho => hl o (by simp [Formula.leaves, ho])) h5 h2
    obtain ⟨s, r1, r, r2, rfl, r4, r5⟩ := method_reads o p1 q1 (fun e => p4 (h3.resolve_left (fun g => g e)))
    exact ⟨r, r2, by simp only [Formula.code, p2, q2, Option.bind_some, r1], r4, fun _ => r5⟩
  | .word m a b, y, hl, hs, ht => by
    simp only [Formula.tree, Option.bind_eq_some_iff] at ht
    obtain ⟨s, h1, t, h2, h3⟩ := ht
    simp only [Formula.safe, Bool.and_eq_true] at hs
    obtain ⟨p, p1, p2, rfl, p4⟩ := formula_reads a s (fun o ho => hl o (by simp [Formula.leaves, ho])) hs.1 h1
    obtain ⟨q, q1, q2, rfl, q4⟩ := formula_reads b t (fun o ho => hl o (by simp [Formula.leaves, ho])) hs.2 h2
    obtain ⟨s, r1, r, r2, rfl, r4, r5⟩ := word_reads m p1 q1 h3
    exact ⟨r, r2, by simp only [Formula.code, p2, q2, Option.bind_some, r1], r4, fun _ => r5⟩
  | .one o a, y, hl, hs, ht => by
    simp only [Formula.tree, Option.map_eq_some_iff] at ht
    obtain ⟨s, h1, rfl⟩ := ht
    obtain ⟨p, p1, p2, rfl, p4⟩ := formula_reads a s hl hs h1
    obtain ⟨s, r1, r, r2, rfl, r4, r5⟩ := method1_reads o p1
    exact ⟨r, r2, by simp only [Formula.code, p2, Option.bind_some, r1], r4, fun _ => r5⟩

/-- **C70** for formulas of any size: the code of a formula over conversions is the same formula over their codes. -/
theorem C70_formula_partial (f : Formula) {y : Ast} (hl : ∀ o ∈ f.leaves, o.Ok) (hs : f.safe = true) (hf : f.tree = some y) :
    ∃ s, f.code = some s ∧ ∀ t, Parses s t ↔ t = y := by
  obtain ⟨o, h1, h2, rfl, _⟩ := formula_reads f y hl hs hf
  have h : Parses o.code o.tree := by
    have h0 := h1.reads [] rfl (by simp)
    rw [List.append_nil] at h0
    refine ⟨o.toks, ?_, ?_⟩
    · rw [lex, h0]
      simp [lexFrom, final]
    · simpa [Ev] using h1.rd.expr (rest := []) (by simp [strength])
  exact ⟨_, h2, fun t => ⟨fun ht => parses_unique ht h, fun ht => ht ▸ h⟩⟩

/-! ## Concrete cases -/

/-- `data_`. -/
def demoThis : Operand := operand demo (.name "data_")

/-- `-2`. -/
def demoNeg : Operand := operand demo (.const (.int (-2)))

theorem demoThis_ok : demoThis.Ok := operand_ok demo_names (by decide +kernel)

theorem demoNeg_ok : demoNeg.Ok := operand_ok demo_names (by decide +kernel)

/-- `~((c.this() - -2) // c.this()[-2] >= -c.this())`. -/
def demoFormula : Formula :=
  .one .invert (.two .ge (.two .floordiv (.two .sub (.leaf demoThis) (.leaf demoNeg))
    (.two .getitem (.leaf demoThis) (.leaf demoNeg))) (.one .neg (.leaf demoThis)))

example : demoFormula.code = some "(not (((data_ - -2) // (data_[-2])) >= (-data_)))" := by decide +kernel

example : ∃ s, demoFormula.code = some s ∧ ∀ t, Parses s t ↔ t = .not (.cmp (.bin .floorDiv (.bin .sub (.name "data_") (.neg (.num 2)))
    (.sub (.name "data_") (.neg (.num 2)))) [.ge] [.neg (.name "data_")]) := by
  refine C70_formula_partial demoFormula (fun o ho => ?_) (by decide +kernel) (by decide +kernel)
  simp only [demoFormula, Formula.leaves, List.mem_append, List.mem_singleton] at ho
  rcases ho with ((rfl | rfl) | (rfl | rfl)) | rfl <;> first | exact demoThis_ok | exact demoNeg_ok

example : ∃ s, Method.not_in.made.text [demoThis.code, demoNeg.code] = some s ∧
    ∀ t, Parses s t ↔ t = .cmp (.name "data_") [.notIn] [.neg (.num 2)] :=
  C70_words .not_in demoThis_ok demoNeg_ok (by decide +kernel)

example : Method.gte.made.text [render demo (.name "a"), render demo (.const (.int 1))] =
    some (render demo (.bin .ge (.name "a") (.const (.int 1)))) :=
  C70_text .gte _ _ _ rfl

/-- The full statement is false for a lookup in a negative number: `c.naive(-2)[c.this()]` is `-(2[data_])`. -/
theorem C70_refuted_negative : demoNeg.Ok ∧ demoThis.Ok ∧
    PyOp.getitem.method.made.text [demoNeg.code, demoThis.code] = some "(-2[data_])" ∧
    ¬ Parses "(-2[data_])" (PyOp.getitem.tree demoNeg.tree demoThis.tree) ∧
    Parses "(-2[data_])" (.neg (.sub (.num 2) (.name "data_"))) := by
  have h2 : Parses "(-2[data_])" (.neg (.sub (.num 2) (.name "data_"))) := parses_of_parseText (n := 40) (by decide +kernel)
  refine ⟨demoNeg_ok, demoThis_ok, by decide +kernel, fun h => ?_, h2⟩
  exact absurd (parses_unique h h2) (by decide +kernel)

end Verif.Inline
