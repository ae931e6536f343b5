import Verif.Stmt.AggCall

/-!
# Stmt: the class `AggData` of `group_by`
-/

set_option autoImplicit false

namespace Verif.Stmt

open Verif.Text Verif.Agg

variable {V E : Type}

/-- The body of the class (1126-1137) as statements. -/
def classBody (n : Nat) : List Stmt :=
  [.assign [.name "__slots__"] (.display .list ((List.range n).map (fun j => .str (attrName j).toList))),
    .def_ "__init__" ["self"] []
      ((List.range n).map (fun j => .assign [.attr (.name "self") (attrName j)] (.name "_none")))]

theorem digit_plain {l : List Char} (h : l.all Char.isDigit = true) : plainText l = true := by
  simp only [plainText, List.all_eq_true] at h ⊢
  intro c hc
  have := h c hc
  have hd : ∀ d : Char, d.isDigit = false → c ≠ d := by
    rintro d hd rfl
    rw [hd] at this
    cases this
  simp [hd '\'' (by decide), hd '\\' (by decide), hd '\n' (by decide), hd '\r' (by decide)]

theorem attr_plain (j : Nat) : plainText (attrName j).toList = true := by
  rw [attrName_toList]
  have h := digit_plain (digits_all j)
  simp only [plainText, List.all_cons] at h ⊢
  rw [h]
  decide

theorem slots_read : ∀ l : List Nat,
    AllRead (l.map (fun i => "'v" ++ toString i ++ "'")) (l.map (fun i => [.str (attrName i).toList]))
  | [] => .nil
  | i :: l => by
    refine .cons ?_ (slots_read l)
    intro cs _ _
    have e : ("'v" ++ toString i ++ "'").toList ++ cs = '\'' :: ((attrName i).toList ++ '\'' :: cs) := by
      simp [attrName, String.toList_append]
    rw [e, reads_quoted (attr_plain i)]

theorem slots_rd : ∀ l : List Nat,
    AllRd (l.map (fun i => [Tok.str (attrName i).toList])) (l.map (fun j => Ast.str (attrName j).toList))
  | [] => .nil
  | i :: l => .cons (pr_str _).rd (slots_rd l)

/-- The line of one attribute. -/
def initTree (i : Nat) : Tree := .leaf [.name "self", .dot, .name (attrName i), .assign, .name "_none"]

theorem init_has : ∀ l : List Nat, l ≠ [] →
    HasAll ((l.map (fun i => "        self.v" ++ toString i ++ " = _none")).map String.toList)
      (flatAll 8 (l.map initTree))
  | [], h => absurd rfl h
  | i :: l, _ => by
    have h1 : lexFrom .start ((attrName i).toList ++ " = _none".toList) =
        some [.name (attrName i), .assign, .name "_none"] :=
      (Lx.of_reads (reads_name (attrName_name i) true)).then " = _none" (tr := [.assign, .name "_none"])
        (by decide +kernel)
    have h2 := Has.lineOf (spaced := "        self.") (pre := "self.") 8 (tp := [.name "self", .dot]) rfl
      (by decide +kernel) (by decide) (by decide) h1
    have e : ("        self.v" ++ toString i ++ " = _none").toList =
        "        self.".toList ++ ((attrName i).toList ++ " = _none".toList) := by
      rw [attrName_toList, String.toList_append, String.toList_append]
      simp
    rw [← e] at h2
    cases l with
    | nil =>
      refine .one ?_
      simpa [initTree, flatAll, Tree.flat] using h2
    | cons k l =>
      have := HasAll.cons h2 (init_has (k :: l) (by simp))
      simpa [initTree, flatAll, Tree.flat] using this

theorem init_seg : ∀ l : List Nat,
    Seg (l.map initTree) (l.map (fun j => .assign [.attr (.name "self") (attrName j)] (.name "_none")))
  | [] => .nil
  | i :: l => by
    have h1 : Seg [initTree i] [.assign [.attr (.name "self") (attrName i)] (.name "_none")] :=
      Seg.leaf (simple_assign1 (ts := [.name "self", .dot, .name (attrName i)])
        (pr_dot (pr_name "self") (isConst_of_name (attrName_name i))) rfl (Ex.of_rd (pr_name "_none").rd))
    refine h1.append (init_seg l) ?_
    cases l <;> rfl

theorem init_ok : ∀ l : List Nat, OkAll (l.map initTree)
  | [] => trivial
  | i :: l => ⟨by simp [initTree, Tree.Ok], init_ok l⟩

/-- The text of the class is read as its statements. -/
theorem class_source (n : Nat) (hn : n ≠ 0) : Source (classText n) [.class_ "AggData" (classBody n)] := by
  have hne : List.range n ≠ [] := by simpa using hn
  have l1 := Has.fixed (spaced := "class AggData:") (pre := "class AggData:") 0
    (ts := [.kw "class", .name "AggData", .colon]) rfl (by decide +kernel) (by decide) (by decide)
  have hsl : lexFrom .start ((slotNames n).toList ++ "]".toList) =
      some (sepBy [.comma] ((List.range n).map (fun i => [Tok.str (attrName i).toList])) ++ [.rbr]) := by
    have := lex_join (sep := ", ") (r := "]") (tsep := [.comma]) (tr := [.rbr]) (by decide +kernel)
      (slots_read (List.range n)) (by decide +kernel) (by decide +kernel) (by decide +kernel) []
    simpa [slotNames, lexFrom, final] using this
  have l2 := Has.lineOf (spaced := "    __slots__ = [") (pre := "__slots__ = [") 4
    (tp := [.name "__slots__", .assign, .lbr]) rfl (by decide +kernel) (by decide) (by decide) hsl
  have l3 := Has.fixed (spaced := "    def __init__(self):") (pre := "def __init__(self):") 4
    (ts := [.kw "def", .name "__init__", .lpar, .name "self", .rpar, .colon]) rfl (by decide +kernel) (by decide)
    (by decide)
  have l4 := (init_has (List.range n) hne).join
  have all := (HasAll.cons l1 (.cons l2 (.cons l3 (.one l4)))).join
  let slots : List Tok := [.name "__slots__", .assign, .lbr] ++
    (sepBy [.comma] ((List.range n).map (fun i => [Tok.str (attrName i).toList])) ++ [.rbr])
  have hp := pr_list (slots_rd (List.range n))
  refine source_of (ts := [.block [.kw "class", .name "AggData"]
    [.leaf slots,
      .block [.kw "def", .name "__init__", .lpar, .name "self", .rpar] ((List.range n).map initTree)]]) ?_ ?_ ?_
  · simpa [classText, initLines, flatAll, Tree.flat, slots] using all
  · refine ⟨⟨by simp, ?_, ⟨by simpa using hn, init_ok _⟩, trivial⟩, trivial⟩
    have := (Ex.of_rd hp.rd).okAfter [.name "__slots__", .assign]
    simpa [slots] using this
  · refine StmtsOf.class_ ?_ .nil
    refine .leaf ?_ (StmtsOf.def_ rfl (by decide) (init_seg _).stmts .nil)
    exact simple_assign1 (pr_name "__slots__") rfl (Ex.of_rd hp.rd)

theorem slotList_body (n : Nat) : slotList (classBody n) = (List.range n).map attrName := by
  simp only [classBody, slotList, List.filterMap_map]
  rw [← List.filterMap_eq_map]
  congr 1
  funext j
  simp

theorem runInit_range (slots : List String) (l : List Nat) (hl : ∀ j ∈ l, attrName j ∈ slots) (k : Nat) :
    runInit (V := V) slots (l.map (fun j => .assign [.attr (.name "self") (attrName j)] (.name "_none"))) (attrName k) =
      if k ∈ l then some .sentinel else none := by
  induction l with
  | nil => rfl
  | cons i l ih =>
    have ih := ih (fun j hj => hl j (List.mem_cons_of_mem _ hj))
    simp only [List.map_cons, runInit, ih, hl i (List.mem_cons_self ..), and_true, List.mem_cons]
    by_cases h : k = i
    · subst h
      simp
    · have : attrName k ≠ attrName i := fun he => h (attrName_inj he)
      simp [h, this]

/-- A new object has all attributes, and they are the sentinel. -/
theorem init_class (n k : Nat) (hk : k < n) :
    runInit (V := V) (slotList (classBody n)) (methodBody "__init__" (classBody n)) (attrName k) = some .sentinel := by
  have h1 : methodBody "__init__" (classBody n) =
      (List.range n).map (fun j => .assign [.attr (.name "self") (attrName j)] (.name "_none")) := rfl
  rw [h1, runInit_range]
  · simp [hk]
  · intro j hj
    rw [slotList_body]
    exact List.mem_map_of_mem hj

end Verif.Stmt
