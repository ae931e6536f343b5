import Verif.Inline.Lemmas

/-!
# Inline: what the fields of a template mean

Templates are written from pieces; the text of an inline expression is the pieces one after another with the codes of
their arguments.  Nothing here is code of the repository (`str.format` is described in Python's Library Reference).
-/

set_option autoImplicit false

namespace Verif.Inline

/-- A piece of a template. -/
inductive Piece
  | lit (s : List Char)
  /-- `{}` -/
  | auto
  /-- `{n}` -/
  | pos (n : Nat)
  /-- `{name}` -/
  | kw (s : List Char)
  deriving DecidableEq

/-- Braces are doubled. -/
def escape (c : Char) : List Char := if c = '{' ∨ c = '}' then [c, c] else [c]

/-- How a piece is written. -/
def Piece.write : Piece → List Char
  | .lit s => s.flatMap escape
  | .auto => ['{', '}']
  | .pos n => '{' :: (Nat.toDigits 10 n ++ ['}'])
  | .kw s => '{' :: (s ++ ['}'])

/-- How a template is written. -/
def writeAll (ps : List Piece) : List Char := ps.flatMap Piece.write

/-- Names of keyword arguments: letters, digits and underscores, not only digits. -/
def Piece.named : Piece → Bool
  | .kw s => s.all fieldChar && !s.all Char.isDigit
  | _ => true

/-- `{}`. -/
def Piece.isAuto : Piece → Bool
  | .auto => true
  | _ => false

/-- `{n}`. -/
def Piece.isPos : Piece → Bool
  | .pos _ => true
  | _ => false

/-- The text meant; `n` is the number of fields `{}` before. -/
def meant (as : Args String) : Nat → List Piece → Option (List Char)
  | _, [] => some []
  | n, .lit s :: ps => (meant as n ps).map (s ++ ·)
  | n, .auto :: ps =>
    match as.args[n]? with
    | some a => (meant as (n + 1) ps).map (a.toList ++ ·)
    | none => none
  | n, .pos i :: ps =>
    match as.args[i]? with
    | some a => (meant as n ps).map (a.toList ++ ·)
    | none => none
  | n, .kw s :: ps =>
    match as.kwargs.lookup (String.ofList s) with
    | some a => (meant as n ps).map (a.toList ++ ·)
    | none => none

/-! ## Reading of fields -/

theorem map_map_append {α : Type} (x : Option (List α)) (a b : List α) :
    (x.map (b ++ ·)).map (a ++ ·) = x.map (a ++ b ++ ·) := by
  cases x <;> simp

theorem fields_lit (s : List Char) (rest : List Char) :
    fields .lit (s.flatMap escape ++ rest) = (fields .lit rest).map (s.map FOut.ch ++ ·) := by
  induction s with
  | nil =>
    show fields .lit rest = (fields .lit rest).map ([] ++ ·)
    cases fields .lit rest <;> rfl
  | cons c s ih =>
    have e : fields .lit (escape c ++ (s.flatMap escape ++ rest)) =
        (fields .lit (s.flatMap escape ++ rest)).map ([FOut.ch c] ++ ·) := by
      unfold escape
      by_cases h1 : c = '{'
      · subst h1
        simp [fields, fstep]
      · by_cases h2 : c = '}'
        · subst h2
          simp [fields, fstep]
        · simp [fields, fstep, h1, h2]
    rw [List.flatMap_cons, List.append_assoc, e, ih, map_map_append]
    rfl

theorem fields_name (s : List Char) (hs : s.all fieldChar = true) (acc rest : List Char) :
    fields (.field acc) (s ++ '}' :: rest) = (fields .lit rest).map ([FOut.field (acc ++ s)] ++ ·) := by
  induction s generalizing acc with
  | nil => simp [fields, fstep]
  | cons c s ih =>
    simp only [List.all_cons, Bool.and_eq_true] at hs
    have hc : c ≠ '}' := by
      rintro rfl
      exact absurd hs.1 (by decide)
    simp only [List.cons_append, fields, fstep, hc, if_false, hs.1, if_true, Option.bind_some, ih hs.2]
    cases fields .lit rest <;> simp

theorem fields_field {s : List Char} (hs : s.all fieldChar = true) (hn : s ≠ []) (rest : List Char) :
    fields .lit ('{' :: (s ++ '}' :: rest)) = (fields .lit rest).map ([FOut.field s] ++ ·) := by
  cases s with
  | nil => exact absurd rfl hn
  | cons c s =>
    simp only [List.all_cons, Bool.and_eq_true] at hs
    have h1 : c ≠ '}' := by
      rintro rfl
      exact absurd hs.1 (by decide)
    have h2 : c ≠ '{' := by
      rintro rfl
      exact absurd hs.1 (by decide)
    have e := fields_name s hs.2 [c] rest
    simp only [List.cons_append, fields, fstep, if_true, Option.bind_some, h1, h2, if_false, hs.1, e]
    cases fields .lit rest <;> simp

theorem digits_toDigits (n : Nat) : digits (Nat.toDigits 10 n) = n := by
  have := Nat.ofDigitChars_ten_toDigits (n := n)
  simpa [Nat.ofDigitChars, digits] using this

theorem isNumber_toDigits (n : Nat) : isNumber (Nat.toDigits 10 n) = true := by
  simp only [isNumber, List.all_eq_true]
  exact fun c hc => Nat.isDigit_of_mem_toDigits (by decide) (by decide) hc

theorem fieldChar_toDigits (n : Nat) : (Nat.toDigits 10 n).all fieldChar = true := by
  have := isNumber_toDigits n
  simp only [isNumber, List.all_eq_true] at this ⊢
  intro c hc
  simp [fieldChar, Char.isAlphanum, this c hc]

/-- What `str.format` sees of a piece. -/
def Piece.outs : Piece → List FOut
  | .lit s => s.map .ch
  | .auto => [.field []]
  | .pos n => [.field (Nat.toDigits 10 n)]
  | .kw s => [.field s]

theorem named_ne {s : List Char} (h : (Piece.kw s).named = true) : s ≠ [] ∧ s.all fieldChar = true ∧ isNumber s = false := by
  simp only [Piece.named, Bool.and_eq_true, Bool.not_eq_true'] at h
  refine ⟨?_, h.1, h.2⟩
  rintro rfl
  cases h.2

theorem fields_piece {p : Piece} (hp : p.named = true) (rest : List Char) :
    fields .lit (p.write ++ rest) = (fields .lit rest).map (p.outs ++ ·) := by
  cases p with
  | lit s => exact fields_lit s rest
  | auto => simp [Piece.write, Piece.outs, fields, fstep]
  | pos n =>
    simp only [Piece.write, Piece.outs, List.cons_append, List.append_assoc, List.nil_append]
    exact fields_field (fieldChar_toDigits n) Nat.toDigits_ne_nil rest
  | kw s =>
    simp only [Piece.write, Piece.outs, List.cons_append, List.append_assoc, List.nil_append]
    exact fields_field (named_ne hp).2.1 (named_ne hp).1 rest

theorem fields_write : ∀ {ps : List Piece}, (∀ p ∈ ps, p.named = true) →
    fields .lit (writeAll ps) = some (ps.flatMap Piece.outs)
  | [], _ => rfl
  | p :: ps, h => by
    simp only [writeAll, List.flatMap_cons]
    rw [fields_piece (h p (by simp))]
    have := fields_write (ps := ps) (fun q hq => h q (by simp [hq]))
    simp only [writeAll] at this
    rw [this]
    rfl

/-! ## Numbers of fields -/

theorem number_chars (st : Numbering) (s : List Char) (l : List FOut) :
    number st (s.map FOut.ch ++ l) = (number st l).map (s.map TPart.ch ++ ·) := by
  induction s with
  | nil =>
    show number st l = (number st l).map ([] ++ ·)
    cases number st l <;> rfl
  | cons c s ih =>
    simp only [List.map_cons, List.cons_append, number, ih]
    cases number st l <;> simp

theorem number_pos (st : Numbering) (n : Nat) (l : List FOut) : number st (.field (Nat.toDigits 10 n) :: l) =
    match st with
    | .auto _ => none
    | _ => (number .manual l).map (.code (Nat.toDigits 10 n) :: ·) := by
  cases hd : Nat.toDigits 10 n with
  | nil => exact absurd hd Nat.toDigits_ne_nil
  | cons c s =>
    have := isNumber_toDigits n
    rw [hd] at this
    simp only [number, this, if_true]
    cases st <;> rfl

theorem number_kw (st : Numbering) {s : List Char} (h : (Piece.kw s).named = true) (l : List FOut) :
    number st (.field s :: l) = (number st l).map (.code s :: ·) := by
  obtain ⟨h1, _, h3⟩ := named_ne h
  cases s with
  | nil => exact absurd rfl h1
  | cons c s => simp [number, h3]

theorem get_number (as : Args String) (n : Nat) : as.get (Nat.toDigits 10 n) = as.args[n]? := by
  simp [Args.get, isNumber_toDigits, digits_toDigits]

theorem find_lookup (s : List Char) : ∀ kws : List (String × String),
    (kws.find? (fun p => p.1.toList == s)).map (·.2) = kws.lookup (String.ofList s)
  | [] => rfl
  | (k, v) :: kws => by
    have e : (k.toList == s) = (String.ofList s == k) := by
      rw [Bool.eq_iff_iff, beq_iff_eq, beq_iff_eq]
      constructor
      · rintro rfl; simp
      · rintro rfl; simp
    simp only [List.find?_cons, List.lookup, e]
    cases String.ofList s == k with
    | true => rfl
    | false => exact find_lookup s kws

theorem get_name (as : Args String) {s : List Char} (h : (Piece.kw s).named = true) :
    as.get s = as.kwargs.lookup (String.ofList s) := by
  rw [Args.get, (named_ne h).2.2]
  exact find_lookup s as.kwargs

/-- The numbering after `n` fields `{}`. -/
def autoSt : Nat → Numbering
  | 0 => .undecided
  | n + 1 => .auto (n + 1)

theorem number_auto (n : Nat) (l : List FOut) :
    number (autoSt n) (.field [] :: l) = (number (autoSt (n + 1)) l).map (.code (Nat.toDigits 10 n) :: ·) := by
  cases n with
  | zero =>
    have : Nat.toDigits 10 0 = ['0'] := by decide
    simp [autoSt, number, this]
  | succ n => simp [autoSt, number]

theorem bind_put_chars (as : Args String) (s : List Char) (x : Option (List TPart)) :
    (x.map (s.map TPart.ch ++ ·)).bind (put as) = (x.bind (put as)).map (s ++ ·) := by
  cases x with
  | none => rfl
  | some l => exact put_chars as s l

theorem bind_put_code (as : Args String) (k : List Char) (x : Option (List TPart)) :
    (x.map (.code k :: ·)).bind (put as) = match as.get k with
      | some a => (x.bind (put as)).map (a.toList ++ ·)
      | none => none := by
  cases x with
  | none => cases as.get k <;> rfl
  | some l =>
    simp only [Option.map_some, Option.bind_some, put]
    cases as.get k <;> rfl

/-- Automatic numbers. -/
theorem put_auto (as : Args String) : ∀ (ps : List Piece) (n : Nat), (∀ p ∈ ps, p.named = true) →
    (∀ p ∈ ps, p.isPos = false) → (number (autoSt n) (ps.flatMap Piece.outs)).bind (put as) = meant as n ps
  | [], n, _, _ => by simp [number, put, meant]
  | p :: ps, n, h, hp => by
    have ih := fun m => put_auto as ps m (fun q hq => h q (by simp [hq])) (fun q hq => hp q (by simp [hq]))
    cases p with
    | lit s => simp only [List.flatMap_cons, Piece.outs, number_chars, bind_put_chars, ih, meant]
    | auto =>
      simp only [List.flatMap_cons, Piece.outs, List.cons_append, List.nil_append, number_auto, bind_put_code, get_number, ih,
        meant]
    | pos i => exact absurd (hp (.pos i) (by simp)) (by simp [Piece.isPos])
    | kw s =>
      have hs := h (.kw s) (by simp)
      simp only [List.flatMap_cons, Piece.outs, List.cons_append, List.nil_append, number_kw _ hs, bind_put_code,
        get_name as hs, ih, meant]

/-- Numbers written by hand. -/
theorem put_manual (as : Args String) : ∀ (ps : List Piece) (n : Nat) (st : Numbering), (∀ k, st ≠ .auto k) →
    (∀ p ∈ ps, p.named = true) → (∀ p ∈ ps, p.isAuto = false) →
    (number st (ps.flatMap Piece.outs)).bind (put as) = meant as n ps
  | [], n, _, _, _, _ => by simp [number, put, meant]
  | p :: ps, n, st, hst, h, hp => by
    have ih := fun m st' h' => put_manual as ps m st' h' (fun q hq => h q (by simp [hq])) (fun q hq => hp q (by simp [hq]))
    cases p with
    | lit s => simp only [List.flatMap_cons, Piece.outs, number_chars, bind_put_chars, ih n st hst, meant]
    | auto => exact absurd (hp .auto (by simp)) (by simp [Piece.isAuto])
    | pos i =>
      simp only [List.flatMap_cons, Piece.outs, List.cons_append, List.nil_append, number_pos]
      have e := ih n .manual (by simp)
      cases st with
      | auto k => exact absurd rfl (hst k)
      | undecided => simp only [bind_put_code, get_number, e, meant]
      | manual => simp only [bind_put_code, get_number, e, meant]
    | kw s =>
      have hs := h (.kw s) (by simp)
      simp only [List.flatMap_cons, Piece.outs, List.cons_append, List.nil_append, number_kw _ hs, bind_put_code,
        get_name as hs, ih n st hst, meant]

/-- Nothing but manual numbers after a manual one. -/
theorem number_no_auto : ∀ (ps : List Piece), (∀ p ∈ ps, p.named = true) → (∃ p ∈ ps, p.isAuto = true) →
    number .manual (ps.flatMap Piece.outs) = none
  | [], _, h => by simp at h
  | p :: ps, h, ⟨q, hq, ha⟩ => by
    have h' := fun q hq => h q (List.mem_cons_of_mem p hq)
    cases p with
    | auto => simp [Piece.outs, number]
    | lit s =>
      have : ∃ p ∈ ps, p.isAuto = true := by
        rcases List.mem_cons.mp hq with rfl | hq
        · cases ha
        · exact ⟨q, hq, ha⟩
      simp [Piece.outs, number_chars, number_no_auto ps h' this]
    | pos i =>
      have : ∃ p ∈ ps, p.isAuto = true := by
        rcases List.mem_cons.mp hq with rfl | hq
        · cases ha
        · exact ⟨q, hq, ha⟩
      simp [Piece.outs, number_pos, number_no_auto ps h' this]
    | kw s =>
      have : ∃ p ∈ ps, p.isAuto = true := by
        rcases List.mem_cons.mp hq with rfl | hq
        · cases ha
        · exact ⟨q, hq, ha⟩
      simp [Piece.outs, number_kw _ (h (.kw s) (by simp)), number_no_auto ps h' this]

theorem number_no_pos : ∀ (ps : List Piece) (n : Nat), (∀ p ∈ ps, p.named = true) → (∃ p ∈ ps, p.isPos = true) →
    number (.auto n) (ps.flatMap Piece.outs) = none
  | [], _, _, h => by simp at h
  | p :: ps, n, h, ⟨q, hq, ha⟩ => by
    have h' := fun q hq => h q (List.mem_cons_of_mem p hq)
    cases p with
    | pos i => simp [Piece.outs, number_pos]
    | lit s =>
      have : ∃ p ∈ ps, p.isPos = true := by
        rcases List.mem_cons.mp hq with rfl | hq
        · cases ha
        · exact ⟨q, hq, ha⟩
      simp [Piece.outs, number_chars, number_no_pos ps n h' this]
    | auto =>
      have : ∃ p ∈ ps, p.isPos = true := by
        rcases List.mem_cons.mp hq with rfl | hq
        · cases ha
        · exact ⟨q, hq, ha⟩
      simp [Piece.outs, number, number_no_pos ps (n + 1) h' this]
    | kw s =>
      have : ∃ p ∈ ps, p.isPos = true := by
        rcases List.mem_cons.mp hq with rfl | hq
        · cases ha
        · exact ⟨q, hq, ha⟩
      simp [Piece.outs, number_kw _ (h (.kw s) (by simp)), number_no_pos ps n h' this]

theorem number_mixed : ∀ (ps : List Piece), (∀ p ∈ ps, p.named = true) → (∃ p ∈ ps, p.isAuto = true) →
    (∃ p ∈ ps, p.isPos = true) → number .undecided (ps.flatMap Piece.outs) = none
  | [], _, h, _ => by simp at h
  | p :: ps, h, ⟨q, hq, ha⟩, ⟨r, hr, hb⟩ => by
    have h' := fun q hq => h q (List.mem_cons_of_mem p hq)
    have h1 : p.isAuto = false → ∃ p ∈ ps, p.isAuto = true := fun he => by
      rcases List.mem_cons.mp hq with rfl | hq
      · rw [he] at ha; cases ha
      · exact ⟨q, hq, ha⟩
    have h2 : p.isPos = false → ∃ p ∈ ps, p.isPos = true := fun he => by
      rcases List.mem_cons.mp hr with rfl | hr
      · rw [he] at hb; cases hb
      · exact ⟨r, hr, hb⟩
    cases p with
    | pos i => simp [Piece.outs, number_pos, number_no_auto ps h' (h1 rfl)]
    | lit s => simp [Piece.outs, number_chars, number_mixed ps h' (h1 rfl) (h2 rfl)]
    | auto => simp [Piece.outs, number, number_no_pos ps 1 h' (h2 rfl)]
    | kw s => simp [Piece.outs, number_kw _ (h (.kw s) (by simp)), number_mixed ps h' (h1 rfl) (h2 rfl)]

/-- **C69**, the text: an inline expression is its template in parentheses with the codes of the arguments in their
places; the k-th `{}` stands for the k-th argument, `{n}` for argument n, `{name}` for the keyword argument. -/
theorem C69_fields (ps : List Piece) (as : Args String) (hn : ∀ p ∈ ps, p.named = true)
    (hm : (∀ p ∈ ps, p.isAuto = false) ∨ (∀ p ∈ ps, p.isPos = false)) :
    inlineText (String.ofList (writeAll ps)) as = (meant as 0 ps).map fun s => "(" ++ String.ofList s ++ ")" := by
  rw [inlineText, parts, String.toList_ofList, fields_write hn, Option.bind_some]
  congr 1
  rcases hm with hm | hm
  · exact put_manual as ps 0 .undecided (by simp) hn hm
  · exact put_auto as ps 0 hn hm

/-- Automatic and manual numbers are not mixed (`ValueError`). -/
theorem C69_fields_mixed (ps : List Piece) (as : Args String) (hn : ∀ p ∈ ps, p.named = true)
    (ha : ∃ p ∈ ps, p.isAuto = true) (hp : ∃ p ∈ ps, p.isPos = true) :
    inlineText (String.ofList (writeAll ps)) as = none := by
  rw [inlineText, parts, String.toList_ofList, fields_write hn, Option.bind_some, number_mixed ps hn ha hp]
  rfl

/-- `{}[{x}] + {{{}}}`. -/
def demoPieces : List Piece := [.auto, .lit ['['], .kw ['x'], .lit "] + {".toList, .auto, .lit ['}']]

example : inlineText "{}[{x}] + {{{}}}" ⟨["a", "b"], [("y", "d"), ("x", "c")]⟩ = some "(a[c] + {b})" := by
  have h := C69_fields demoPieces ⟨["a", "b"], [("y", "d"), ("x", "c")]⟩ (by decide +kernel) (.inr (by decide +kernel))
  rw [show String.ofList (writeAll demoPieces) = "{}[{x}] + {{{}}}" by decide +kernel] at h
  rw [h]
  decide +kernel

example : inlineText "{0} + {}" ⟨["a", "b"], []⟩ = none := by
  have h := C69_fields_mixed [.pos 0, .lit " + ".toList, .auto] ⟨["a", "b"], []⟩ (by decide +kernel)
    ⟨.auto, by decide +kernel⟩ ⟨.pos 0, by decide +kernel⟩
  rwa [show String.ofList (writeAll [.pos 0, .lit " + ".toList, .auto]) = "{0} + {}" by decide +kernel] at h

end Verif.Inline
