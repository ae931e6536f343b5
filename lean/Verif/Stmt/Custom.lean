import Verif.Stmt.TemplateEqual
import Verif.Stmt.TemplateOne

/-!
# Stmt: reduces with functions of the user

`c.reduce(f, <expr>, initial=…, default=…)` with a callable `f`: the text which is generated for it, how it is read, and
what it does.

Source: `/repo/src/convtools/aggregations.py` lines 23-42, 116-176, 788-945, `/repo/src/convtools/base.py` 1357-1389.
-/

set_option autoImplicit false

namespace Verif.Stmt

open Verif.Text Verif.Agg Verif.Reducers

variable {V E : Type}

/-! ## The text -/

/-- `Call._gen_code_and_update_ctx` (base.py 1372-1383) for a function and two arguments without names. -/
def callText (g a b : String) : String := g ++ "(" ++ a ++ "," ++ b ++ ")"

/-- A `c.reduce(f, expr, initial=…).filter(…)` with a callable `f` (788-914), the result of the code generation for its
parts: the name of `f`, the codes of `initial`, the expression and the condition; how the codes are read and what they
mean.  `initial` is a conversion, so it may depend on the row.  Simplification: no `initial_from_first` and no additional
arguments. -/
structure CRed (V E : Type) where
  g : String
  code : String
  initial : Option String
  cond : Option String
  xa : Ast
  ia : Option Ast
  condS : Option CondSrc
  x : V → Except E V
  start : Option (V → Except E V)

/-- `_ReducerExpression.gen_reduce_initial` (123-154). -/
def CRed.initText (u : CRed V E) (var : String) : String :=
  var ++ " = " ++ (match u.initial with
    | none => u.code
    | some i => callText u.g i u.code)

/-- `_ReducerExpression.gen_reduce_two` (156-176). -/
def CRed.twoText (u : CRed V E) (var : String) : String := var ++ " = " ++ callText u.g var u.code

/-- `Reduce.gen_reduce_code_block` (876-914).  Simplification: the texts of the parts do not depend on the place where
they are generated. -/
def CRed.block (u : CRed V E) (var : String) (flag : Nat) : BlockText where
  var := var.toList
  init := (u.initText var).toList
  two := (u.twoText var).toList
  cond := u.cond.map String.toList
  flag := flag

/-- A reduce with a function of the user has `unconditional_init=False` (60, 800). -/
def CRed.text (u : CRed V E) : TRed := ⟨u.block, false⟩

/-- `code_hash` (643-648) of reduce number `i`. -/
def CRed.hash (m : Bool) (i : Nat) (u : CRed V E) : String := String.ofList (codeHash (textOf m i u.text))

example : ((⟨"f_1", "row_[0]", some "0", none, .num 0, some (.num 0), none, fun r => .ok r, none⟩ : CRed Nat Unit).block
    "agg_data_v0_" 1).init = "agg_data_v0_ = f_1(0,row_[0])".toList := by decide +kernel

example : ((⟨"f_1", "row_[0]", none, none, .num 0, none, none, fun r => .ok r, none⟩ : CRed Nat Unit).block
    "agg_data_v0_" 1).two = "agg_data_v0_ = f_1(agg_data_v0_,row_[0])".toList := by decide +kernel

/-! ## How it is read -/

theorem Pc.w_comma : Piece "," [.comma] := by decide +kernel

theorem call_code {g a b : String} (hg : isName g = true) {at_ bt : List Tok} {aa ba : Ast} (ha : Code a.toList at_ aa)
    (hb : Code b.toList bt ba) :
    Code (callText g a b).toList (.name g :: .lpar :: (at_ ++ .comma :: (bt ++ [.rpar]))) (.call (.name g) [aa, ba] []) := by
  refine ⟨?_, ?_⟩
  · intro cs h1 h2
    have e : (callText g a b).toList ++ cs = g.toList ++ ("(".toList ++ (a.toList ++ (",".toList ++
        (b.toList ++ (")".toList ++ cs))))) := by
      simp [callText, String.toList_append]
    have hn : Lx g.toList [.name g] := Lx.of_reads (reads_name hg true)
    rw [e, hn.before _ Pc.w_lpar, ha.lx.before _ Pc.w_comma, hb.lx.before _ Pc.w_rpar]
    cases lexFrom .start cs <;> simp
  · have := pr_call' (pr_name g) (.cons ha.rd (.cons hb.rd .nil))
    simpa [sepBy] using this.rd

theorem Pc.w_assign : Piece " = " [.assign] := by decide +kernel

theorem assign_part (m : Bool) (j : Nat) {s : String} {ts : List Tok} {a : Ast} (h : Code s.toList ts a) :
    ∃ us, Part 0 (placeText m j ++ " = " ++ s).toList us [.assign [place m j] a] := by
  have hv := place_code m j
  have hl : lexFrom .start (placeText m j ++ " = " ++ s).toList = some (placeToks m j ++ [.assign] ++ ts) := by
    have e : (placeText m j ++ " = " ++ s).toList = (placeText m j).toList ++ (" = ".toList ++ s.toList) := by
      simp [String.toList_append]
    rw [e, hv.lx.before _ Pc.w_assign]
    have := h.lx [] (by decide) (by simp)
    rw [List.append_nil] at this
    rw [this]
    simp [lexFrom, final]
  have h0 := place_startsOk m j
  have hex := Ex.of_rd h.rd
  refine ⟨[.leaf (placeToks m j ++ .assign :: ts)], ?_, ?_, by simp, Seg.leaf (simple_assign1 hv.pr hv.target hex), rfl⟩
  · have := Has.lineAny (spaced := "") 0 (s := (placeText m j ++ " = " ++ s).toList) rfl ?_ ?_ hl
    · simpa [flatAll, Tree.flat] using this
    · simp only [String.toList_append, List.append_assoc]
      cases hp : (placeText m j).toList with
      | nil => rw [hp] at h0; cases h0
      | cons c l =>
        rw [hp] at h0
        simpa [startsOk] using h0
    · simp only [String.toList_append, List.append_assoc]
      cases hp : (placeText m j).toList with
      | nil => rw [hp] at h0; cases h0
      | cons c l => simp
  · refine ⟨?_, trivial⟩
    have := hex.okAfter (placeToks m j ++ [.assign])
    simpa using this

/-- How the codes of a reduce are read. -/
structure CRed.Reads (u : CRed V E) : Prop where
  g : isName u.g = true
  x : ∃ xt, Code u.code.toList xt u.xa
  initial : match u.initial, u.ia with
    | none, none => True
    | some i, some a => ∃ it, Code i.toList it a
    | _, _ => False
  cond : match u.cond, u.condS with
    | none, none => True
    | some s, some d => Lx s.toList d.toks ∧ Ex d.toks d.tree
    | _, _ => False

/-- The statement under `is _none`. -/
def CRed.initS (u : CRed V E) (va : Ast) : Stmt :=
  match u.ia with
  | none => .assign [va] u.xa
  | some i => .assign [va] (.call (.name u.g) [i, u.xa] [])

/-- The other statement. -/
def CRed.twoS (u : CRed V E) (va : Ast) : Stmt := .assign [va] (.call (.name u.g) [va, u.xa] [])

theorem custom_block {u : CRed V E} (h : u.Reads) (m : Bool) (j flag : Nat) :
    ∃ q, BlockReads (u.block (placeText m j) flag) q ∧ q.va = place m j ∧ q.flag = flag ∧ q.cond = u.condS ∧
      q.initS = [u.initS (place m j)] ∧ q.twoS = [u.twoS (place m j)] := by
  have hv := place_code m j
  obtain ⟨xt, hx⟩ := h.x
  obtain ⟨ts2, t2⟩ := assign_part m j (call_code h.g ⟨hv.lx, hv.pr.rd⟩ hx)
  have t1 : ∃ ts, Part 0 (u.initText (placeText m j)).toList ts [u.initS (place m j)] := by
    have hi := h.initial
    simp only [CRed.initText, CRed.initS]
    cases h1 : u.initial with
    | none =>
      rw [h1] at hi
      cases h2 : u.ia with
      | some a => rw [h2] at hi; exact hi.elim
      | none => exact assign_part m j hx
    | some i =>
      rw [h1] at hi
      cases h2 : u.ia with
      | none => rw [h2] at hi; exact hi.elim
      | some a =>
        rw [h2] at hi
        obtain ⟨it, hi⟩ := hi
        exact assign_part m j (call_code h.g hi hx)
  obtain ⟨ts1, t1⟩ := t1
  refine ⟨⟨placeToks m j, place m j, ts1, _, ts2, _, u.condS, flag⟩, ⟨hv, t1, t2, rfl, ?_⟩, rfl, rfl, rfl, rfl, rfl⟩
  have := h.cond
  simp only [CRed.block]
  cases hc : u.cond <;> cases hd : u.condS <;> rw [hc, hd] at this <;> exact this

/-! ## Renaming the variable -/

/-- The texts of the reduce do not contain the text of the variable. -/
structure CRed.Free (u : CRed V E) (var : String) : Prop where
  g : ¬ var.toList <:+: u.g.toList
  code : ¬ var.toList <:+: u.code.toList
  initial : ∀ i, u.initial = some i → ¬ var.toList <:+: i.toList
  cond : ∀ c, u.cond = some c → ¬ var.toList <:+: c.toList

section
variable {old new : List Char} (ho : old ≠ []) (hs : ∀ c ∈ old, isSep c = false)
include ho hs

theorem replace_sep {c : Char} (hc : isSep c = true) (a b : List Char) :
    replaceAll old new (a ++ c :: b) = replaceAll old new a ++ c :: replaceAll old new b :=
  replaceAll_sep ho (fun h => by rw [hs c h] at hc; cases hc) b _ a (Nat.le_refl _)

theorem replace_assign (s : List Char) :
    replaceAll old new (old ++ (" = ".toList ++ s)) = new ++ (" = ".toList ++ replaceAll old new s) := by
  have e : " = ".toList ++ s = [] ++ ' ' :: ([] ++ '=' :: ([] ++ ' ' :: s)) := rfl
  rw [replaceAll_hit ho, e, replace_sep ho hs (by decide), replace_sep ho hs (by decide), replace_sep ho hs (by decide)]
  rfl

theorem replace_call {g : List Char} (hg : ¬ old <:+: g) (a b : List Char) :
    replaceAll old new (g ++ '(' :: (a ++ ',' :: (b ++ [')']))) =
      g ++ '(' :: (replaceAll old new a ++ ',' :: (replaceAll old new b ++ [')'])) := by
  rw [replace_sep ho hs (by decide), replace_sep ho hs (by decide), replace_sep ho hs (by decide), replaceAll_free hg]
  rfl

end

theorem callText_toList (g a b : String) :
    (callText g a b).toList = g.toList ++ '(' :: (a.toList ++ ',' :: (b.toList ++ [')'])) := by
  simp [callText, String.toList_append]

theorem custom_renamed {u : CRed V E} {m : Bool} {i : Nat} (h : u.Free (placeText m i)) (j flag : Nat) :
    renamed m i j (u.block (placeText m i) flag) = u.block (placeText m j) flag := by
  by_cases hij : placeText m i = placeText m j
  · rw [renamed, if_neg (by simpa using hij), ← hij]
  · rw [renamed, if_pos hij]
    have ho : (placeText m i).toList ≠ [] := by
      intro h0
      have := placeText_length m i
      rw [h0] at this
      simp at this
    have hs := placeText_sep m i
    have hv : replaceAll (placeText m i).toList (placeText m j).toList (placeText m i).toList = (placeText m j).toList := by
      have := replaceAll_hit (new := (placeText m j).toList) ho []
      simpa [replaceAll_nil] using this
    simp only [rename, CRed.block, CRed.initText, CRed.twoText, String.toList_append, List.append_assoc,
      replace_assign ho hs, callText_toList, replace_call ho hs h.g, replaceAll_free h.code, hv]
    congr 1
    cases hi : u.initial with
    | none => simp only [replaceAll_free h.code]
    | some i => simp only [callText_toList, replace_call ho hs h.g, replaceAll_free h.code, replaceAll_free (h.initial i hi)]

/-! ## What it does -/

/-- A value of the user or the sentinel. -/
def pval : Option V → PVal V
  | none => .sentinel
  | some v => .user v

/-- The same, as something with contents. -/
def dval : Option V → Option (DVal V)
  | none => none
  | some v => some (.val (.user v))

/-- The variable holds a value of the user or nothing. -/
def UserVal (v : Option (DVal V)) : Prop := ∃ s, v = dval s

/-- The value of the user which the variable holds. -/
def undval : Option (DVal V) → Option V
  | some (.val (.user v)) => some v
  | _ => none

theorem undval_dval (s : Option V) : undval (dval s) = s := by cases s <;> rfl

theorem pval_of {heap : List (Box V)} {p : PVal V} {s : Option V} (h : dec heap p = dval s) : p = pval s := by
  cases s with
  | none => exact dec_none h
  | some v =>
    cases p with
    | ref i =>
      simp only [dec, dval] at h
      cases hi : heap[i]? <;> rw [hi] at h <;> cases h
    | user w => simp only [dec, dval, Option.some.injEq, DVal.val.injEq] at h; exact h
    | _ => simp [dec, dval] at h

/-- A call of the function named `g` with two arguments, the second being `b` and the first one of `as`, gives what `F`
gives for their values (`none` is the sentinel); an exception of the second argument is raised. -/
structure CallsFn (P : Py V E) (args : List String) (env : String → Option (PVal V)) (g : String)
    (F : Option V → V → Except E V) (as : Ast → Prop) (b : Ast) : Prop where
  call : ∀ st a s v, as a → Ctx args env st → ev P a st = .ok (pval s, st) → ev P b st = .ok (.user v, st) →
    ev P (.call (.name g) [a, b] []) st = (lift (F s v)).map (fun w => (.user w, st))
  first : ∀ st a e, as a → Ctx args env st → ev P a st = .error (some e) → ev P (.call (.name g) [a, b] []) st = .error (some e)
  second : ∀ st a s e, as a → Ctx args env st → ev P a st = .ok (pval s, st) → ev P b st = .error (some e) →
    ev P (.call (.name g) [a, b] []) st = .error (some e)

/-- The first arguments with which a reduce calls its function: its variable and `initial`. -/
def CRed.firsts (u : CRed V E) (m : Bool) (a : Ast) : Prop := (∃ j, a = place m j) ∨ u.ia = some a

/-- What is needed of reduce number `i`: its codes are read in this way, they mean what is said, and the name of its
variable does not occur in them. -/
structure COk (P : Py V E) (condSem : String → V → Except E Bool) (args : List String) (env : String → Option (PVal V))
    (m : Bool) (fns : String → Option V → V → Except E V) (i : Nat) (u : CRed V E) : Prop where
  reads : u.Reads
  x : Gives P args env u.xa u.x
  initial : match u.ia, u.start with
    | none, none => True
    | some a, some s => Gives P args env a s
    | _, _ => False
  fn : CallsFn P args env u.g (fns u.g) (u.firsts m) u.xa
  cond : ∀ c d, u.cond = some c → u.condS = some d → Tests P (Ctx args env) d.tree (condSem c)
  free : u.Free (placeText m i)

/-- Reduce number `i` as the model of aggregations has it. -/
def CRed.red (fns : String → Option V → V → Except E V) (m : Bool) (i : Nat) (u : CRed V E) : Red V (DVal V) E where
  hash := u.hash m i
  cond := u.cond
  uncond := false
  init := fun row _ =>
    match u.start with
    | none => (u.x row).map (fun v => dval (some v))
    | some s => andThen (s row) (fun a => andThen (u.x row) (fun v => (fns u.g (some a) v).map (fun w => dval (some w))))
  two := fun row r => andThen (u.x row) (fun v => (fns u.g (undval r) v).map (fun w => dval (some w)))

section
variable {P : Py V E} {condSem : String → V → Except E Bool} {args : List String} {env : String → Option (PVal V)}
  {m : Bool} {fns : String → Option V → V → Except E V} {i j : Nat} {u : CRed V E}

/-- An assignment to the variable. -/
theorem acts_assign {C : St V → Prop} {a : Ast} {code : V → Option (DVal V) → Except E (Option (DVal V))}
    {y : V → Option V → Except E V} (hcode : ∀ row s, code row (dval s) = (y row s).map (fun v => dval (some v)))
    (h : ∀ st row s, C st → st.loc "row_" = some (.user row) → Held m j (pval s) st →
      ev P a st = (lift (y row s)).map (fun w => (.user w, st))) :
    Acts P C UserVal m j [.assign [place m j] a] code := by
  intro st row p hc hr hh hf
  obtain ⟨s, hs⟩ := hf.kind
  obtain rfl := pval_of hs
  have he := h st row s hc hr hh
  rw [hs, hcode]
  cases hy : y row s with
  | error e =>
    rw [hy] at he
    simp only [Except.map]
    rw [execAll_one, exec_assign_err he]
  | ok v =>
    rw [hy] at he
    refine ⟨⟨some v, rfl⟩, ?_⟩
    exact does_val (q := .user v) hh (by simp) (by rw [execAll_one, exec_assign hh he])

theorem custom_ok (h : COk P condSem args env m fns i u) :
    ∃ q, RedOk P condSem args env m UserVal j (if m then 1 <<< i else 0) (u.red fns m i) (renamed m i j (textOf m i u.text)) q := by
  have ht : textOf m i u.text = u.block (placeText m i) (if m then 1 <<< i else 0) := rfl
  rw [ht, custom_renamed h.free]
  obtain ⟨q, h1, h2, h3, h4, h5, h6⟩ := custom_block h.reads m j (if m then 1 <<< i else 0)
  refine ⟨q, h1, h2, h3, ?_, ?_, ?_, ?_⟩
  · rw [h5]
    have hi := h.initial
    simp only [CRed.initS, CRed.red]
    cases hia : u.ia with
    | none =>
      rw [hia] at hi
      cases hst : u.start with
      | some s => rw [hst] at hi; exact hi.elim
      | none =>
        refine acts_assign (y := fun row _ => u.x row) (fun _ _ => rfl) ?_
        intro st row s hc hr _
        exact h.x st row hc hr
    | some a =>
      rw [hia] at hi
      cases hst : u.start with
      | none => rw [hst] at hi; exact hi.elim
      | some f =>
        rw [hst] at hi
        refine acts_assign (y := fun row _ => andThen (f row) (fun a => andThen (u.x row) (fun v => fns u.g (some a) v))) ?_ ?_
        · intro row s
          simp only [andThen]
          cases f row <;> [rfl; (cases u.x row <;> rfl)]
        · intro st row s hc hr _
          have e1 := hi st row hc hr
          have e2 := h.x st row hc hr
          cases hfr : f row with
          | error e =>
            rw [hfr] at e1
            exact h.fn.first st a e (.inr hia) hc e1
          | ok w =>
            rw [hfr] at e1
            cases hxr : u.x row with
            | error e =>
              rw [hxr] at e2
              exact h.fn.second st a (some w) e (.inr hia) hc e1 e2
            | ok v =>
              rw [hxr] at e2
              exact h.fn.call st a (some w) v (.inr hia) hc e1 e2
  · rw [h6]
    refine acts_assign (y := fun row s => andThen (u.x row) (fun v => fns u.g s v)) ?_ ?_
    · intro row s
      simp only [CRed.red, undval_dval, andThen]
      cases u.x row <;> rfl
    · intro st row s hc hr hh
      have e2 := h.x st row hc hr
      cases hxr : u.x row with
      | error e =>
        rw [hxr] at e2
        exact h.fn.second st _ s e (.inl ⟨j, rfl⟩) hc hh.ev e2
      | ok v =>
        rw [hxr] at e2
        exact h.fn.call st _ s v (.inl ⟨j, rfl⟩) hc hh.ev e2
  · simp only [CRed.red, CRed.block]
    cases u.cond with
    | none => rfl
    | some c => simp
  · intro c d hc hd
    rw [h4] at hd
    simp only [CRed.block] at hc
    cases hcc : u.cond with
    | none => rw [hcc] at hc; cases hc
    | some c' =>
      rw [hcc, Option.map_some, Option.some.injEq] at hc
      subst hc
      rw [String.ofList_toList]
      exact h.cond _ _ hcc hd

end

/-- The reduces number `i` and the following ones. -/
def customsFrom (fns : String → Option V → V → Except E V) (m : Bool) : Nat → List (CRed V E) → List (Red V (DVal V) E)
  | _, [] => []
  | i, u :: us => u.red fns m i :: customsFrom fns m (i + 1) us

theorem linked_custom {P : Py V E} {condSem : String → V → Except E Bool} {args : List String}
    {env : String → Option (PVal V)} {m : Bool} {fns : String → Option V → V → Except E V} :
    ∀ {us : List (CRed V E)} {i : Nat}, (∀ n u, us[n]? = some u → COk P condSem args env m fns (i + n) u) →
      Linked P condSem args env m (fun _ => UserVal) i (us.map CRed.text) (customsFrom fns m i us)
  | [], _, _ => .nil
  | u :: us, i, h => by
    refine .cons rfl rfl (fun j _ => custom_ok (h 0 u rfl)) (linked_custom (fun n v hv => ?_))
    have := h (n + 1) v (by simpa using hv)
    rwa [Nat.add_assoc, Nat.add_comm 1 n]

theorem customsFrom_get (fns : String → Option V → V → Except E V) (m : Bool) : ∀ (us : List (CRed V E)) (i n : Nat),
    (customsFrom fns m i us)[n]? = us[n]?.map (CRed.red fns m (i + n))
  | [], _, _ => by simp [customsFrom]
  | u :: us, i, 0 => rfl
  | u :: us, i, n + 1 => by
    rw [customsFrom, List.getElem?_cons_succ, List.getElem?_cons_succ, customsFrom_get fns m us (i + 1) n,
      Nat.add_assoc, Nat.add_comm 1 n]

/-! ## Comparing reduces -/

theorem code_det {s : List Char} {ts us : List Tok} {a b : Ast} (h : Code s ts a) (h' : Code s us b) : a = b := by
  have e := h.lx.whole.symm.trans h'.lx.whole
  obtain rfl := Option.some.inj e
  exact congrArg Prod.fst (ev_unique (Ex.of_rd h.rd) (Ex.of_rd h'.rd))

theorem name_noPar {g : String} (h : isName g = true) : '(' ∉ g.toList := by
  have h1 := isNameTok_of h
  simp only [isNameTok, Bool.and_eq_true] at h1
  have h2 := h1.1
  intro hm
  cases hg : g.toList with
  | nil => rw [hg] at hm; cases hm
  | cons c s =>
    rw [hg] at h2 hm
    simp only [isWordText, Bool.and_eq_true, List.all_eq_true] at h2
    rcases List.mem_cons.1 hm with rfl | hm
    · have := h2.1; revert this; decide
    · have := h2.2 _ hm; revert this; decide

theorem before_char {c : Char} : ∀ {a a' b b' : List Char}, c ∉ a → c ∉ a' → a ++ c :: b = a' ++ c :: b' → a = a' ∧ b = b'
  | [], [], _, _, _, _, h => ⟨rfl, by simpa using h⟩
  | [], x :: a', _, _, _, h2, h => by
    simp only [List.nil_append, List.cons_append, List.cons.injEq] at h
    exact absurd (h.1 ▸ List.mem_cons_self) h2
  | x :: a, [], _, _, h1, _, h => by
    simp only [List.nil_append, List.cons_append, List.cons.injEq] at h
    exact absurd (h.1 ▸ List.mem_cons_self) h1
  | x :: a, x' :: a', _, _, h1, h2, h => by
    simp only [List.cons_append, List.cons.injEq] at h
    have := before_char (fun hm => h1 (List.mem_cons_of_mem _ hm)) (fun hm => h2 (List.mem_cons_of_mem _ hm)) h.2
    exact ⟨by rw [h.1, this.1], this.2⟩

/-- The first statement without the variable. -/
def CRed.firstH (u : CRed V E) : List Char :=
  " = ".toList ++ (match u.initial with
    | none => u.code.toList
    | some i => (callText u.g i u.code).toList)

/-- The other one. -/
def CRed.secondH (u : CRed V E) : List Char := " = ".toList ++ (u.g.toList ++ '(' :: ([] ++ ',' :: (u.code.toList ++ [')'])))

theorem custom_hash {u : CRed V E} (h : u.Reads) {i : Nat} (hf : u.Free (placeText false i)) :
    splitNl (codeHash (textOf false i u.text)) = hashRaw (u.cond.map String.toList) [u.firstH] [u.secondH] := by
  have ho := placeText_length false i
  have hs := placeText_sep false i
  have hne : (placeText false i).toList ≠ [] := by
    intro h0
    rw [h0] at ho
    simp at ho
  have hv : '\n' ∉ (placeText false i).toList := fun hm => by have := hs _ hm; revert this; decide
  obtain ⟨xt, hx⟩ := h.x
  have hxn : '\n' ∉ u.code.toList := lex_oneLine _ .start rfl hx.lx.whole
  have hgn : '\n' ∉ u.g.toList := lex_oneLine _ .start rfl (Lx.of_reads (reads_name h.g true)).whole
  have hin : ∀ t, u.initial = some t → '\n' ∉ t.toList := by
    intro t ht
    have hi := h.initial
    rw [ht] at hi
    cases hia : u.ia with
    | none => rw [hia] at hi; exact hi.elim
    | some a =>
      rw [hia] at hi
      obtain ⟨it, hi⟩ := hi
      exact lex_oneLine _ .start rfl hi.lx.whole
  have hcn : ∀ c, u.cond = some c → '\n' ∉ c.toList := by
    intro c hc
    have hi := h.cond
    rw [hc] at hi
    cases hia : u.condS with
    | none => rw [hia] at hi; exact hi.elim
    | some d =>
      rw [hia] at hi
      exact lex_oneLine _ .start rfl hi.1.whole
  have hF : '\n' ∉ u.firstH := by
    simp only [CRed.firstH, List.mem_append, not_or]
    refine ⟨by decide, ?_⟩
    cases hi : u.initial with
    | none => exact hxn
    | some t =>
      simp only [callText_toList, List.mem_append, List.mem_cons, List.not_mem_nil, or_false, not_or]
      exact ⟨hgn, by decide, hin t hi, by decide, hxn, by decide⟩
  have hS : '\n' ∉ u.secondH := by
    simp only [CRed.secondH, List.mem_append, List.mem_cons, List.not_mem_nil, or_false, not_or]
    exact ⟨by decide, hgn, by decide, not_false, by decide, hxn, by decide⟩
  have eI : (u.initText (placeText false i)).toList = (placeText false i).toList ++ u.firstH := by
    simp only [CRed.initText, CRed.firstH, String.toList_append, List.append_assoc]
    cases u.initial <;> rfl
  have eT : (u.twoText (placeText false i)).toList = (placeText false i).toList ++ (" = ".toList ++
      (u.g.toList ++ '(' :: ((placeText false i).toList ++ ',' :: (u.code.toList ++ [')'])))) := by
    simp only [CRed.twoText, String.toList_append, List.append_assoc, callText_toList]
  have hvv : replaceAll (placeText false i).toList [] (placeText false i).toList = [] := by
    have := replaceAll_hit (new := []) hne []
    simpa [replaceAll_nil] using this
  refine hash_split (b := textOf false i u.text) (xs := [(u.initText (placeText false i)).toList])
    (ys := [(u.twoText (placeText false i)).toList]) ho hs rfl ?_ ?_ (by simp) (by simp) ?_ ?_ ?_ ?_ ?_ ?_ ?_
  · simp [textOf, CRed.text, CRed.block, joinLines]
  · simp [textOf, CRed.text, CRed.block, joinLines]
  · intro l hl
    rw [List.mem_singleton.1 hl, eI]
    refine ⟨?_, by simp [hne]⟩
    rw [List.mem_append, not_or]
    exact ⟨hv, hF⟩
  · intro l hl
    rw [List.mem_singleton.1 hl, eT]
    refine ⟨?_, by simp [hne]⟩
    simp only [List.mem_append, List.mem_cons, List.not_mem_nil, or_false, not_or]
    exact ⟨hv, by decide, hgn, by decide, hv, by decide, hxn, by decide⟩
  · intro c hc
    simp only [textOf, CRed.text, CRed.block, Option.map_eq_some_iff] at hc
    obtain ⟨d, hd, rfl⟩ := hc
    exact ⟨hcn d hd, hf.cond d hd⟩
  · simp only [List.map_cons, List.map_nil, List.cons.injEq, and_true]
    rw [eI]
    show replaceAll (placeText false i).toList [] _ = _
    simp only [CRed.firstH]
    rw [replace_assign hne hs]
    cases hi : u.initial with
    | none => simp only [replaceAll_free hf.code, List.nil_append]
    | some t =>
      simp only [callText_toList, replace_call hne hs hf.g, replaceAll_free hf.code, replaceAll_free (hf.initial t hi),
        List.nil_append]
  · simp only [List.map_cons, List.map_nil, List.cons.injEq, and_true]
    rw [eT]
    show replaceAll (placeText false i).toList [] _ = _
    simp only [CRed.secondH]
    rw [replace_assign hne hs, replace_call hne hs hf.g, replaceAll_free hf.code, hvv, List.nil_append]
  · intro l hl
    rw [List.mem_singleton.1 hl]
    exact hF
  · intro l hl
    rw [List.mem_singleton.1 hl]
    exact hS

/-- In `group_by`, reduces with functions of the user which are compared by the same text call the same function with the
same expression and the same `initial`, under the same condition. -/
theorem custom_same {u v : CRed V E} (hu : u.Reads) (hv : v.Reads) {i j : Nat} (fu : u.Free (placeText false i))
    (fv : v.Free (placeText false j)) (h : u.hash false i = v.hash false j) :
    u.cond = v.cond ∧ u.g = v.g ∧ u.code = v.code ∧ u.initial = v.initial := by
  have he : codeHash (textOf false i u.text) = codeHash (textOf false j v.text) := by
    have := congrArg String.toList h
    simpa [CRed.hash] using this
  have h1 := custom_hash hu fu
  rw [he, custom_hash hv fv] at h1
  rcases hashRaw_inj (by simp) (by simp) h1 with ⟨hc, hI, hT⟩ | hm | hm
  · have hcond : u.cond = v.cond := by
      cases hcu : u.cond <;> cases hcv : v.cond <;> rw [hcu, hcv] at hc <;> simp_all [String.toList_inj]
    simp only [List.cons.injEq, and_true, CRed.secondH, List.append_cancel_left_eq, List.nil_append] at hT
    obtain ⟨hg, hx⟩ := before_char (name_noPar hv.g) (name_noPar hu.g) hT
    have hx : v.code.toList = u.code.toList := by simpa using hx
    have hg := String.toList_inj.1 hg
    have hx' := String.toList_inj.1 hx
    refine ⟨hcond, hg.symm, hx'.symm, ?_⟩
    simp only [List.cons.injEq, and_true, CRed.firstH, List.append_cancel_left_eq] at hI
    cases hiu : u.initial with
    | none =>
      cases hiv : v.initial with
      | none => rfl
      | some t =>
        rw [hiu, hiv] at hI
        simp only [callText_toList] at hI
        have := congrArg List.length hI
        rw [← hx] at this
        simp only [List.length_append, List.length_cons, List.length_nil] at this
        omega
    | some s =>
      cases hiv : v.initial with
      | none =>
        rw [hiu, hiv] at hI
        simp only [callText_toList] at hI
        have := congrArg List.length hI
        rw [hx] at this
        simp only [List.length_append, List.length_cons, List.length_nil] at this
        omega
      | some t =>
        rw [hiu, hiv] at hI
        simp only [callText_toList, hg, hx', List.append_cancel_left_eq, List.cons.injEq, true_and,
          List.append_cancel_right_eq, String.toList_inj] at hI
        rw [hI]
  · simp [CRed.firstH] at hm
  · simp [CRed.firstH] at hm

end Verif.Stmt
