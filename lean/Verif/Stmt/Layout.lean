import Verif.Text.LexCode
import Verif.Agg.Hash

/-!
# Stmt: Python's lines and indentation

The layout rules of the Python Language Reference (2.1.5, 2.1.7, 2.1.8: physical lines, blank lines, indentation),
for the source texts which the library executes.  This is the reference against which generated functions are
checked, not code of the repository.

Simplifications: no comments, tabs, line continuations, open brackets at the end of a line, `;`, and no block on the
line of its header.  A line which ends with `:` is the header of a block.
-/

set_option autoImplicit false

namespace Verif.Stmt

open Verif.Text

/-- Physical lines of a text. -/
def splitNl : List Char → List (List Char)
  | [] => [[]]
  | c :: s =>
    if c = '\n' then [] :: splitNl s
    else match splitNl s with
      | [] => [[c]]
      | l :: ls => (c :: l) :: ls

/-- Indentation of a line and the rest of it. -/
def measure : List Char → Nat × List Char
  | ' ' :: s => let (n, r) := measure s; (n + 1, r)
  | s => (0, s)

/-- A line with its indentation, in tokens. -/
abbrev Line := Nat × List Tok

/-- The tokens of a physical line; blank lines are dropped. -/
def tokLine (l : List Char) : Option (List Line) :=
  match measure l with
  | (_, []) => some []
  | (n, c :: s) => (lexFrom .start (c :: s)).map (fun ts => [(n, ts)])

/-- The tokens of physical lines. -/
def tokLines : List (List Char) → Option (List Line)
  | [] => some []
  | l :: ls => (tokLine l).bind fun a => (tokLines ls).map (a ++ ·)

/-- The lines of a text. -/
def linesOf (s : List Char) : Option (List Line) := tokLines (splitNl s)

/-- Statements with their blocks. -/
inductive Tree
  | leaf (ts : List Tok)
  /-- `head` without the colon -/
  | block (head : List Tok) (body : List Tree)

/-- The statements indented by exactly `n`; stops at a line which is indented less.  The first argument bounds the
number of steps, the number of lines is enough. -/
def forest : Nat → Nat → List Line → Option (List Tree × List Line)
  | 0, _, ls => if ls.isEmpty then some ([], []) else none
  | _ + 1, _, [] => some ([], [])
  | f + 1, n, (i, ts) :: ls =>
    if i < n then some ([], (i, ts) :: ls)
    else if n < i then none
    else if ts.getLast? = some .colon then
      match ls with
      | [] => none
      | (j, us) :: ls =>
        if n < j then
          (forest f j ((j, us) :: ls)).bind fun (body, rest) =>
            (forest f n rest).map fun (more, rest) => (.block ts.dropLast body :: more, rest)
        else none
    else (forest f n ls).map fun (more, rest) => (.leaf ts :: more, rest)

/-- The statements of a text. -/
def parseLines (s : List Char) : Option (List Tree) :=
  (linesOf s).bind fun ls =>
    match forest ls.length 0 ls with
    | some (ts, []) => some ts
    | _ => none

/-! ## How laid out statements are read -/

mutual

/-- The lines of a statement indented by `n`, blocks by four more. -/
def Tree.flat (n : Nat) : Tree → List Line
  | .leaf ts => [(n, ts)]
  | .block head body => (n, head ++ [.colon]) :: flatAll (n + 4) body

/-- The lines of statements. -/
def flatAll (n : Nat) : List Tree → List Line
  | [] => []
  | t :: ts => t.flat n ++ flatAll n ts

end

mutual

/-- No simple statement ends with a colon, no block is empty. -/
def Tree.Ok : Tree → Prop
  | .leaf ts => ts.getLast? ≠ some .colon
  | .block _ body => body ≠ [] ∧ OkAll body

/-- The same for all. -/
def OkAll : List Tree → Prop
  | [] => True
  | t :: ts => t.Ok ∧ OkAll ts

end

theorem okAll_append {a b : List Tree} (ha : OkAll a) (hb : OkAll b) : OkAll (a ++ b) := by
  induction a with
  | nil => exact hb
  | cons t a ih => exact ⟨ha.1, ih ha.2⟩

theorem flatAll_append (n : Nat) (a b : List Tree) : flatAll n (a ++ b) = flatAll n a ++ flatAll n b := by
  induction a with
  | nil => rfl
  | cons t a ih => simp [flatAll, ih]

theorem flat_cons (n : Nat) (t : Tree) : ∃ ts rest, t.flat n = (n, ts) :: rest := by
  cases t with
  | leaf ts => exact ⟨_, _, rfl⟩
  | block h b => exact ⟨_, _, rfl⟩

theorem flatAll_cons {n : Nat} {b : List Tree} (h : b ≠ []) : ∃ ts rest, flatAll n b = (n, ts) :: rest := by
  cases b with
  | nil => exact absurd rfl h
  | cons t b =>
    obtain ⟨ts, rest, ht⟩ := flat_cons n t
    exact ⟨ts, rest ++ flatAll n b, by simp [flatAll, ht]⟩

/-- The lines which follow are indented less. -/
def Less (n : Nat) : List Line → Prop
  | [] => True
  | l :: _ => l.1 < n

theorem forest_less {f n : Nat} {rest : List Line} (h : Less n rest) (hf : rest.length ≤ f) :
    forest f n rest = some ([], rest) := by
  cases f with
  | zero =>
    cases rest with
    | nil => rfl
    | cons l rest => simp at hf
  | succ f =>
    cases rest with
    | nil => rfl
    | cons l rest =>
      obtain ⟨i, ts⟩ := l
      simp only [Less] at h
      simp only [forest]
      rw [if_pos h]

/-- Laid out statements are read as these statements. -/
theorem forest_flat : ∀ (f n : Nat) (b : List Tree) (rest : List Line), OkAll b → Less n rest →
    (flatAll n b ++ rest).length ≤ f → forest f n (flatAll n b ++ rest) = some (b, rest)
  | f, n, [], rest, _, hr, hf => forest_less hr hf
  | 0, n, t :: b, rest, _, _, hf => by
    obtain ⟨ts, r, ht⟩ := flat_cons n t
    simp [flatAll, ht] at hf
  | f + 1, n, .leaf ts :: b, rest, hok, hr, hf => by
    simp only [flatAll, Tree.flat, List.cons_append, List.nil_append, List.length_cons] at hf ⊢
    simp only [forest, Nat.lt_irrefl, if_false]
    rw [if_neg hok.1, forest_flat f n b rest hok.2 hr (by omega)]
    rfl
  | f + 1, n, .block h body :: b, rest, hok, hr, hf => by
    obtain ⟨us, ls, hb⟩ := flatAll_cons (n := n + 4) hok.1.1
    have hless : Less (n + 4) (flatAll n b ++ rest) := by
      cases b with
      | nil =>
        cases rest with
        | nil => trivial
        | cons l rest => simp only [flatAll, List.nil_append, Less] at hr ⊢; omega
      | cons t b =>
        obtain ⟨ts, r, ht⟩ := flat_cons n t
        simp only [flatAll, ht, List.cons_append, Less]
        omega
    have e : flatAll n (Tree.block h body :: b) ++ rest =
        (n, h ++ [.colon]) :: (flatAll (n + 4) body ++ (flatAll n b ++ rest)) := by
      simp [flatAll, Tree.flat]
    rw [e] at hf ⊢
    have hl : (flatAll (n + 4) body ++ (flatAll n b ++ rest)).length ≤ f := by
      simp only [List.length_cons] at hf; omega
    have h1 := forest_flat f (n + 4) body (flatAll n b ++ rest) hok.1.2 hless hl
    have h2 := forest_flat f n b rest hok.2 hr (by simp only [List.length_append] at hl ⊢; omega)
    rw [hb, List.cons_append] at h1 ⊢
    simp only [forest, Nat.lt_irrefl, if_false]
    rw [if_pos (by simp), if_pos (by omega), h1]
    simp only [Option.bind_some, h2, Option.map_some, List.dropLast_concat]

/-! ## Lines of composed texts -/

theorem splitNl_ne_nil : ∀ s : List Char, splitNl s ≠ []
  | [] => by simp [splitNl]
  | c :: s => by
    simp only [splitNl]
    split
    · simp
    · split <;> simp

theorem splitNl_append (a b : List Char) : splitNl (a ++ '\n' :: b) = splitNl a ++ splitNl b := by
  induction a with
  | nil => simp [splitNl]
  | cons c a ih =>
    simp only [List.cons_append, splitNl, ih]
    by_cases hc : c = '\n'
    · simp [hc]
    · simp only [if_neg hc]
      cases h : splitNl a with
      | nil => exact absurd h (splitNl_ne_nil a)
      | cons l ls => simp

theorem tokLines_append (a b : List (List Char)) :
    tokLines (a ++ b) = (tokLines a).bind fun x => (tokLines b).map (x ++ ·) := by
  induction a with
  | nil => simp [tokLines]
  | cons l a ih =>
    simp only [List.cons_append, tokLines, ih]
    cases tokLine l <;> cases tokLines a <;> cases tokLines b <;> simp

/-- The text has these lines. -/
def Has (s : List Char) (ls : List Line) : Prop := linesOf s = some ls

theorem Has.append {a b : List Char} {la lb : List Line} (ha : Has a la) (hb : Has b lb) :
    Has (a ++ '\n' :: b) (la ++ lb) := by
  simp only [Has, linesOf] at ha hb ⊢
  rw [splitNl_append, tokLines_append, ha, hb]
  rfl

theorem splitNl_line {s : List Char} (h : '\n' ∉ s) : splitNl s = [s] := by
  induction s with
  | nil => rfl
  | cons c s ih =>
    simp only [List.mem_cons, not_or] at h
    simp only [splitNl, if_neg (Ne.symm h.1), ih h.2]

theorem measure_spaces (k : Nat) (s : List Char) :
    measure (List.replicate k ' ' ++ s) = ((measure s).1 + k, (measure s).2) := by
  induction k with
  | zero => rfl
  | succ k ih =>
    simp only [List.replicate_succ, List.cons_append, measure, ih]
    simp [Nat.add_assoc]

theorem tokLine_spaces (k : Nat) (s : List Char) :
    tokLine (List.replicate k ' ' ++ s) = (tokLine s).map (List.map fun l => (l.1 + k, l.2)) := by
  simp only [tokLine, measure_spaces]
  cases h : (measure s) with
  | mk n r =>
    cases r with
    | nil => rfl
    | cons c r =>
      simp only
      cases lexFrom .start (c :: r) <;> simp

theorem Has.blank (k : Nat) : Has (List.replicate k ' ') [] := by
  have hn : '\n' ∉ List.replicate k ' ' := by
    intro h
    exact absurd (List.eq_of_mem_replicate h) (by decide)
  have := tokLine_spaces k []
  simp only [List.append_nil] at this
  simp only [Has, linesOf, splitNl_line hn, tokLines, this]
  rfl

theorem begin_nl : begin_ '\n' = none := by rfl

/-- The lexer is not inside a string quoted by line breaks. -/
def Sane : LexState → Bool
  | .str q _ => q != '\n'
  | .esc q _ => q != '\n'
  | .hex q _ _ _ => q != '\n'
  | _ => true

theorem step_nl : ∀ st : LexState, Sane st = true → step st '\n' = none
  | .start, _ => by rfl
  | .word acc, _ => by
    simp only [step, begin_nl, Option.map_none]
    rw [if_neg (by decide), if_neg (by decide)]
  | .num n, _ => by
    simp only [step, begin_nl, Option.map_none]
    rw [if_neg (by decide), if_neg (by decide)]
  | .op a, _ => by
    have hd : double a '\n' = none := by
      unfold double
      split <;> first | rfl | simp_all
    simp only [step, hd, begin_nl]
    cases half a <;> rfl
  | .str q acc, h => by
    simp only [Sane, bne_iff_ne, ne_eq] at h
    simp only [step]
    rw [if_neg (fun e => h e.symm)]
    simp
  | .esc q acc, _ => by
    simp [step]
  | .hex q acc left v, _ => by
    have : hexVal '\n' = none := by decide
    simp [step, this]

theorem begin_sane {c : Char} {ts : List Tok} {st : LexState} (h : begin_ c = some (ts, st)) : Sane st = true := by
  unfold begin_ at h
  split at h
  · cases h; rfl
  split at h
  · cases h; rfl
  split at h
  · cases h; rfl
  split at h
  · rename_i hq
    cases h
    rcases hq with rfl | rfl <;> rfl
  split at h
  · cases h; rfl
  split at h
  · cases h; rfl
  · cases h

theorem map_begin_sane {c : Char} {t : Tok} {ts : List Tok} {st : LexState}
    (h : (begin_ c).map (fun x => (t :: x.1, x.2)) = some (ts, st)) : Sane st = true := by
  cases hb : begin_ c with
  | none => rw [hb] at h; cases h
  | some x =>
    rw [hb] at h
    cases h
    exact begin_sane hb

theorem step_sane : ∀ (st : LexState) (c : Char) {ts : List Tok} {st' : LexState}, Sane st = true →
    step st c = some (ts, st') → Sane st' = true
  | .start, c, ts, st', _, h => begin_sane h
  | .word acc, c, ts, st', _, h => by
    simp only [step] at h
    split at h
    · cases h; rfl
    split at h
    · cases h
    · exact map_begin_sane h
  | .num n, c, ts, st', _, h => by
    simp only [step] at h
    split at h
    · cases h; rfl
    split at h
    · cases h
    · exact map_begin_sane h
  | .op a, c, ts, st', _, h => by
    simp only [step] at h
    split at h
    · cases h; rfl
    split at h
    · exact map_begin_sane h
    · cases h
  | .str q acc, c, ts, st', hs, h => by
    simp only [step] at h
    split at h
    · cases h; rfl
    split at h
    · cases h; exact hs
    split at h
    · cases h
    · cases h; exact hs
  | .esc q acc, c, ts, st', hs, h => by
    simp only [step] at h
    repeat' split at h
    all_goals first | (cases h; done) | (cases h; exact hs)
  | .hex q acc left v, c, ts, st', hs, h => by
    simp only [step] at h
    repeat' split at h
    all_goals first | (cases h; done) | (cases h; exact hs)

/-- A text which is read as tokens is on one line. -/
theorem lex_oneLine : ∀ (s : List Char) (st : LexState) {ts : List Tok}, Sane st = true →
    lexFrom st s = some ts → '\n' ∉ s
  | [], _, _, _, _ => by simp
  | c :: s, st, ts, hs, h => by
    simp only [lexFrom] at h
    cases hst : step st c with
    | none => rw [hst] at h; cases h
    | some x =>
      obtain ⟨us, st'⟩ := x
      rw [hst] at h
      simp only [Option.map_eq_some_iff] at h
      obtain ⟨vs, hv, _⟩ := h
      have h1 := lex_oneLine s st' (step_sane st c hs hst) hv
      simp only [List.mem_cons, not_or]
      refine ⟨?_, h1⟩
      rintro rfl
      rw [step_nl st hs] at hst
      cases hst

/-- One line. -/
theorem Has.line (k : Nat) {c : Char} {s : List Char} {ts : List Tok} (hc : c ≠ ' ')
    (h : lexFrom .start (c :: s) = some ts) : Has (List.replicate k ' ' ++ c :: s) [(k, ts)] := by
  have h1 := lex_oneLine (c :: s) .start rfl h
  have h2 : '\n' ∉ List.replicate k ' ' ++ c :: s := by
    simp only [List.mem_append, not_or]
    refine ⟨fun hm => ?_, h1⟩
    exact absurd (List.eq_of_mem_replicate hm) (by decide)
  have h3 : tokLine (c :: s) = some [(0, ts)] := by
    have : measure (c :: s) = (0, c :: s) := by
      unfold measure
      split
      · rename_i he; cases he; exact absurd rfl hc
      · rfl
    simp only [tokLine, this, h, Option.map_some]
  simp only [Has, linesOf, splitNl_line h2, tokLines, tokLine_spaces, h3]
  simp

theorem tokLine_nil : tokLine [] = some [] := rfl

theorem splitNl_eq (s : List Char) : splitNl s = Agg.splitLines s ∨ splitNl s = Agg.splitLines s ++ [[]] := by
  induction s with
  | nil => right; rfl
  | cons c s ih =>
    simp only [Agg.splitLines, splitNl]
    by_cases hc : c = '\n'
    · simp only [if_pos hc]
      rcases ih with h | h
      · left; rw [h]
      · right; rw [h]; rfl
    · simp only [if_neg hc]
      cases h1 : Agg.splitLines s with
      | nil =>
        rw [h1] at ih
        rcases ih with h | h
        · exact absurd h (splitNl_ne_nil s)
        · left; rw [h]; rfl
      | cons l ls =>
        rw [h1] at ih
        rcases ih with h | h
        · left; rw [h]
        · right; rw [h]; rfl

theorem tokLines_splitLines (s : List Char) : tokLines (Agg.splitLines s) = tokLines (splitNl s) := by
  rcases splitNl_eq s with h | h
  · rw [h]
  · rw [h, tokLines_append]
    have : tokLines [[]] = some [] := rfl
    rw [this]
    cases tokLines (Agg.splitLines s) <;> simp

theorem splitLines_noNl (s : List Char) : ∀ l ∈ Agg.splitLines s, '\n' ∉ l := by
  induction s with
  | nil => simp [Agg.splitLines]
  | cons c s ih =>
    simp only [Agg.splitLines]
    by_cases hc : c = '\n'
    · simp only [if_pos hc]
      intro l hl
      rcases List.mem_cons.1 hl with rfl | hl
      · simp
      · exact ih l hl
    · simp only [if_neg hc]
      cases h1 : Agg.splitLines s with
      | nil =>
        intro l hl
        rw [List.mem_singleton.1 hl]
        simpa using Ne.symm hc
      | cons m ms =>
        rw [h1] at ih
        intro l hl
        rcases List.mem_cons.1 hl with rfl | hl
        · simp only [List.mem_cons, not_or]
          exact ⟨Ne.symm hc, ih m (by simp)⟩
        · exact ih l (List.mem_cons_of_mem _ hl)

theorem tokLines_joinLines : ∀ ls : List (List Char), (∀ l ∈ ls, '\n' ∉ l) →
    tokLines (splitNl (Agg.joinLines ls)) = tokLines ls
  | [], _ => rfl
  | [l], h => by rw [Agg.joinLines, splitNl_line (h l (by simp))]
  | l :: m :: ls, h => by
    rw [Agg.joinLines]
    · rw [splitNl_append, tokLines_append, tokLines_joinLines (m :: ls) (fun x hx => h x (List.mem_cons_of_mem _ hx)),
        splitNl_line (h l (by simp)), ← tokLines_append]
      rfl
    · simp

theorem tokLines_spaces (k : Nat) (ls : List (List Char)) :
    tokLines (ls.map (fun l => List.replicate k ' ' ++ l)) = (tokLines ls).map (List.map fun l => (l.1 + k, l.2)) := by
  induction ls with
  | nil => rfl
  | cons l ls ih =>
    simp only [List.map_cons, tokLines, ih, tokLine_spaces]
    cases tokLine l <;> cases tokLines ls <;> simp

/-- `indent_statements` moves all lines. -/
theorem Has.indent {s : List Char} {ls : List Line} (h : Has s ls) (level : Nat) :
    Has (Agg.indent level s) (ls.map fun l => (l.1 + 4 * level, l.2)) := by
  simp only [Has, linesOf, Agg.indent] at h ⊢
  rw [tokLines_joinLines, tokLines_spaces, tokLines_splitLines, h]
  · rfl
  · intro l hl
    obtain ⟨m, hm, rfl⟩ := List.mem_map.1 hl
    simp only [List.mem_append, not_or]
    refine ⟨fun hx => ?_, splitLines_noNl s m hm⟩
    exact absurd (List.eq_of_mem_replicate hx) (by decide)

mutual

theorem flat_shift (n k : Nat) : ∀ t : Tree, (t.flat n).map (fun l => (l.1 + k, l.2)) = t.flat (n + k)
  | .leaf ts => rfl
  | .block h b => by
    simp only [Tree.flat, List.map_cons, flatAll_shift (n + 4) k b]
    rw [show n + 4 + k = n + k + 4 by omega]

theorem flatAll_shift (n k : Nat) : ∀ b : List Tree, (flatAll n b).map (fun l => (l.1 + k, l.2)) = flatAll (n + k) b
  | [] => rfl
  | t :: b => by simp only [flatAll, List.map_append, flat_shift n k t, flatAll_shift n k b]

end

/-- Statements moved by `indent_statements`. -/
theorem Has.indentAll {s : List Char} {b : List Tree} (h : Has s (flatAll 0 b)) (level : Nat) :
    Has (Agg.indent level s) (flatAll (4 * level) b) := by
  have := h.indent level
  rwa [flatAll_shift, Nat.zero_add] at this

/-- A text of laid out statements is read as these statements. -/
theorem parseLines_of {s : List Char} {b : List Tree} (h : Has s (flatAll 0 b)) (hb : OkAll b) :
    parseLines s = some b := by
  simp only [Has] at h
  have := forest_flat (flatAll 0 b).length 0 b [] hb trivial (by simp)
  rw [List.append_nil] at this
  simp only [parseLines, h, Option.bind_some, this]

end Verif.Stmt
