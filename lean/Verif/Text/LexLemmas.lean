import Verif.Text.Lex

/-!
# Text: lemmas on the lexer
-/

set_option autoImplicit false

namespace Verif.Text

/-- Reading a piece of text: its tokens and the state behind it. -/
def run : LexState → List Char → Option (List Tok × LexState)
  | st, [] => some ([], st)
  | st, c :: cs =>
    match step st c with
    | none => none
    | some (ts, st') => (run st' cs).map (fun r => (ts ++ r.1, r.2))

theorem lexFrom_run : ∀ (s cs : List Char) (st st' : LexState) (ts : List Tok), run st s = some (ts, st') →
    lexFrom st (s ++ cs) = (lexFrom st' cs).map (ts ++ ·)
  | [], cs, st, st', ts, h => by
    simp only [run, Option.some.injEq, Prod.mk.injEq] at h
    obtain ⟨rfl, rfl⟩ := h
    simp
  | c :: s, cs, st, st', ts, h => by
    simp only [run] at h
    simp only [List.cons_append, lexFrom]
    cases h1 : step st c with
    | none => rw [h1] at h; cases h
    | some r =>
      obtain ⟨ts1, st1⟩ := r
      rw [h1] at h
      simp only at h ⊢
      cases h2 : run st1 s with
      | none => rw [h2] at h; cases h
      | some r2 =>
        obtain ⟨ts2, st2⟩ := r2
        rw [h2] at h
        simp only [Option.map_some, Option.some.injEq, Prod.mk.injEq] at h
        obtain ⟨rfl, rfl⟩ := h
        rw [lexFrom_run s cs st1 _ _ h2, Option.map_map]
        congr 1
        funext l
        simp

/-- A fixed piece of text which is complete. -/
theorem lex_piece (s : String) {ts : List Tok} (h : run .start s.toList = some (ts, .start)) (cs : List Char) :
    lexFrom .start (s.toList ++ cs) = (lexFrom .start cs).map (ts ++ ·) :=
  lexFrom_run _ _ _ _ _ h

/-- Texts before which a word ends. -/
def wEnd : List Char → Bool
  | [] => true
  | c :: _ => !idChar c && c != '\'' && c != '"'

/-- Texts before which a number ends. -/
def nEnd : List Char → Bool
  | [] => true
  | c :: _ => !idChar c && c != '.'

theorem map_nil_append {α : Type} (x : Option (List α)) : x.map ([] ++ ·) = x := by
  cases x <;> simp

theorem lex_word_end (acc cs : List Char) (h : wEnd cs = true) :
    lexFrom (.word acc) cs = (lexFrom .start cs).map (wordTok (String.ofList acc) :: ·) := by
  cases cs with
  | nil => rfl
  | cons c cs =>
    simp only [wEnd, Bool.and_eq_true, Bool.not_eq_true', bne_iff_ne, ne_eq] at h
    obtain ⟨⟨h1, h2⟩, h3⟩ := h
    simp only [lexFrom, step, h1, Bool.false_eq_true, if_false, h2, h3, or_self]
    cases begin_ c with
    | none => rfl
    | some r =>
      obtain ⟨ts, st⟩ := r
      simp only [Option.map_some, Option.map_map]
      congr 1

theorem run_word (acc s cs : List Char) (h : s.all idChar = true) :
    lexFrom (.word acc) (s ++ cs) = lexFrom (.word (acc ++ s)) cs := by
  induction s generalizing acc with
  | nil => simp
  | cons c s ih =>
    simp only [List.all_cons, Bool.and_eq_true] at h
    simp only [List.cons_append, lexFrom, step, h.1, if_true]
    rw [map_nil_append, ih _ h.2]
    simp

/-- A word: letters, digits and underscores, beginning with no digit. -/
def isWordText (s : List Char) : Bool :=
  match s with
  | [] => false
  | c :: cs => idStart c && cs.all idChar

theorem idStart_begin {c : Char} (h : idStart c = true) : begin_ c = some ([], .word [c]) := by
  unfold begin_
  have : c ≠ ' ' := by rintro rfl; exact absurd h (by decide)
  rw [if_neg this, if_pos h]

theorem lex_word (s cs : List Char) (h : isWordText s = true) (he : wEnd cs = true) :
    lexFrom .start (s ++ cs) = (lexFrom .start cs).map (wordTok (String.ofList s) :: ·) := by
  cases s with
  | nil => cases h
  | cons c s =>
    simp only [isWordText, Bool.and_eq_true] at h
    simp only [List.cons_append, lexFrom, step, idStart_begin h.1]
    rw [map_nil_append, run_word _ _ _ h.2, lex_word_end _ _ he]
    rfl

/-! ## Numbers -/

theorem isDigit_idChar {c : Char} (h : c.isDigit = true) : idChar c = true := by
  simp [idChar, Char.isAlphanum, h]

theorem isDigit_begin {c : Char} (h : c.isDigit = true) : begin_ c = some ([], .num (c.toNat - '0'.toNat)) := by
  unfold begin_
  have h1 : c ≠ ' ' := by rintro rfl; exact absurd h (by decide)
  have h2 : idStart c = false := by
    simp only [Char.isDigit, ge_iff_le, Bool.and_eq_true, decide_eq_true_eq] at h
    have h3 : c.val.toNat ≥ 48 := UInt32.le_iff_toNat_le.1 h.1
    have h4 : c.val.toNat ≤ 57 := UInt32.le_iff_toNat_le.1 h.2
    simp only [idStart, Char.isAlpha, Char.isUpper, Char.isLower, ge_iff_le, Bool.or_eq_false_iff,
      Bool.and_eq_false_iff, decide_eq_false_iff_not, UInt32.le_iff_toNat_le, beq_eq_false_iff_ne, ne_eq]
    refine ⟨⟨?_, ?_⟩, ?_⟩
    · intro h5; have : (65 : Nat) ≤ c.val.toNat := h5.1; omega
    · left; intro h5; have : (97 : Nat) ≤ c.val.toNat := h5; omega
    · rintro rfl; exact absurd h4 (by decide)
  rw [if_neg h1, if_neg (by simp [h2]), if_pos h]

theorem lex_num_end (n : Nat) (cs : List Char) (h : nEnd cs = true) :
    lexFrom (.num n) cs = (lexFrom .start cs).map (.num n :: ·) := by
  cases cs with
  | nil => rfl
  | cons c cs =>
    simp only [nEnd, Bool.and_eq_true, Bool.not_eq_true', bne_iff_ne, ne_eq] at h
    obtain ⟨h1, h2⟩ := h
    have h3 : c.isDigit = false := by
      cases hd : c.isDigit with
      | false => rfl
      | true => rw [isDigit_idChar hd] at h1; cases h1
    have h4 : idStart c = false := by
      cases hs : idStart c with
      | false => rfl
      | true =>
        simp only [idStart, Bool.or_eq_true] at hs
        simp only [idChar, Char.isAlphanum, Bool.or_eq_false_iff] at h1
        simp [h1] at hs
    simp only [lexFrom, step, h3, h4, Bool.false_eq_true, if_false, h2, or_self]
    cases begin_ c with
    | none => rfl
    | some r =>
      obtain ⟨ts, st⟩ := r
      simp only [Option.map_some, Option.map_map]
      congr 1

theorem run_num (n : Nat) (s cs : List Char) (h : ∀ c ∈ s, c.isDigit = true) :
    lexFrom (.num n) (s ++ cs) = lexFrom (.num (Nat.ofDigitChars 10 s n)) cs := by
  induction s generalizing n with
  | nil => simp
  | cons c s ih =>
    simp only [List.cons_append, lexFrom, step, h c (by simp), if_true]
    rw [map_nil_append, ih _ (fun d hd => h d (List.mem_cons_of_mem _ hd)), Nat.ofDigitChars_cons]

theorem lex_nat (n : Nat) (cs : List Char) (h : nEnd cs = true) :
    lexFrom .start (Nat.toDigits 10 n ++ cs) = (lexFrom .start cs).map (.num n :: ·) := by
  have hd : ∀ c ∈ Nat.toDigits 10 n, c.isDigit = true := fun c hc =>
    Nat.isDigit_of_mem_toDigits (by decide) (by decide) hc
  have hv := Nat.ofDigitChars_ten_toDigits (n := n)
  cases hs : Nat.toDigits 10 n with
  | nil => exact absurd hs Nat.toDigits_ne_nil
  | cons c s =>
    rw [hs] at hd hv
    simp only [List.cons_append, lexFrom, step, isDigit_begin (hd c (by simp))]
    rw [map_nil_append, run_num _ _ _ (fun d hd' => hd d (List.mem_cons_of_mem _ hd')), lex_num_end _ _ h]
    rw [Nat.ofDigitChars_cons] at hv
    simp only [Nat.mul_zero, Nat.zero_add] at hv
    rw [hv]

/-! ## Strings -/

theorem hexVal_digitChar {d : Nat} (h : d < 16) : hexVal (Nat.digitChar d) = some d := by
  have : ∀ d : Fin 16, hexVal (Nat.digitChar d.1) = some d.1 := by decide
  exact this ⟨d, h⟩

theorem run_hex (q : Char) (acc cs : List Char) : ∀ (n k v0 v : Nat), 1 ≤ k →
    lexFrom (.hex q acc (n + k) v0) (hexDigits n v ++ cs) = lexFrom (.hex q acc k (16 ^ n * v0 + v % 16 ^ n)) cs
  | 0, k, v0, v, _ => by simp [hexDigits, Nat.mod_one]
  | n + 1, k, v0, v, hk => by
    rw [hexDigits, List.append_assoc, show n + 1 + k = n + (k + 1) by omega, run_hex q acc _ n (k + 1) v0 (v / 16) (by omega)]
    simp only [List.cons_append, List.nil_append, lexFrom, step, hexVal_digitChar (Nat.mod_lt v (by decide : 16 > 0))]
    rw [if_neg (by omega)]
    simp only [Nat.add_sub_cancel]
    rw [map_nil_append]
    congr 2
    rw [Nat.pow_succ, Nat.mul_add, Nat.mul_comm (16 ^ n) 16, Nat.mod_mul, Nat.mul_assoc]
    omega

theorem run_hex_all (q : Char) (acc cs : List Char) (n v : Nat) (h : v < 16 ^ (n + 1)) :
    lexFrom (.hex q acc (n + 1) 0) (hexDigits (n + 1) v ++ cs) = lexFrom (.str q (acc ++ [Char.ofNat v])) cs := by
  rw [hexDigits, List.append_assoc, run_hex q acc _ n 1 0 (v / 16) (by omega)]
  simp only [List.cons_append, List.nil_append, lexFrom, step, hexVal_digitChar (Nat.mod_lt v (by decide : 16 > 0)),
    if_true]
  rw [Option.map_id']
  congr 5
  have : v / 16 < 16 ^ n := Nat.div_lt_of_lt_mul (by rw [Nat.pow_succ, Nat.mul_comm] at h; exact h)
  rw [Nat.mod_eq_of_lt this]
  omega

/-- A character of `repr` of a string is read back. -/
theorem lex_reprChar (printable : Char → Bool) (q c : Char) (hq : q = '\'' ∨ q = '"') (acc cs : List Char) :
    lexFrom (.str q acc) (reprChar printable q c ++ cs) = lexFrom (.str q (acc ++ [c])) cs := by
  have hqb : q ≠ '\\' := by rcases hq with rfl | rfl <;> decide
  have hqe : ('\\' = q) = False := by simp [hqb.symm]
  have hqs : ∀ d : Char, d ≠ '\'' → d ≠ '"' → d ≠ q := by
    intro d h1 h2; rcases hq with rfl | rfl <;> assumption
  unfold reprChar
  split
  · next h =>
    subst h
    simp [lexFrom, step, hqe, Function.comp_def]
  · next hb =>
    split
    · next h =>
      subst h
      simp only [List.cons_append, List.nil_append, lexFrom, step, hqe, if_false, if_true]
      rw [if_pos (by rcases hq with h | h <;> simp [h])]
      simp [Function.comp_def]
    · next hcq =>
      split
      · next h => subst h; simp [lexFrom, step, hqe, Function.comp_def]
      · next hn =>
        split
        · next h => subst h; simp [lexFrom, step, hqe, Function.comp_def]
        · next hr =>
          split
          · next h => subst h; simp [lexFrom, step, hqe, Function.comp_def]
          · split
            · simp [lexFrom, step, hcq, hb, hn, hr]
            · have hx : ∀ (x : Char) (k : Nat), step (.esc q acc) x = some ([], .hex q acc k 0) → ∀ cs,
                lexFrom (.str q acc) ('\\' :: x :: cs) = lexFrom (.hex q acc k 0) cs := by
                intro x k hx cs
                simp [lexFrom, step.eq_5, hqe, hx, Function.comp_def]
              have hc : Char.ofNat c.toNat = c := Char.ofNat_toNat c
              split
              · next h =>
                rw [List.cons_append, List.cons_append, hx 'x' 2 rfl, run_hex_all q acc cs 1 _ (by omega), hc]
              · split
                · next h =>
                  rw [List.cons_append, List.cons_append, hx 'u' 4 rfl, run_hex_all q acc cs 3 _ (by omega), hc]
                · have h1 : c.toNat < 16 ^ 8 := by
                    have := c.valid
                    have h2 : c.toNat < 2 ^ 32 := c.val.toNat_lt
                    exact h2
                  rw [List.cons_append, List.cons_append, hx 'U' 8 rfl, run_hex_all q acc cs 7 _ h1, hc]

theorem quoteFor_quote (s : List Char) : quoteFor s = '\'' ∨ quoteFor s = '"' := by
  unfold quoteFor
  split <;> simp

theorem lex_reprChars (printable : Char → Bool) (q : Char) (hq : q = '\'' ∨ q = '"') (s acc cs : List Char) :
    lexFrom (.str q acc) (s.flatMap (reprChar printable q) ++ cs) = lexFrom (.str q (acc ++ s)) cs := by
  induction s generalizing acc with
  | nil => simp
  | cons c s ih =>
    rw [List.flatMap_cons, List.append_assoc, lex_reprChar printable q c hq, ih]
    simp

theorem quote_begin {q : Char} (hq : q = '\'' ∨ q = '"') : begin_ q = some ([], .str q []) := by
  rcases hq with rfl | rfl <;> rfl

/-- `repr` of a string is read back as that string. -/
theorem lex_reprStr (printable : Char → Bool) (s cs : List Char) :
    lexFrom .start (reprStr printable s ++ cs) = (lexFrom .start cs).map (.str s :: ·) := by
  have hq := quoteFor_quote s
  simp only [reprStr, List.cons_append, lexFrom, step, quote_begin hq]
  rw [map_nil_append, List.append_assoc, lex_reprChars printable _ hq]
  simp [lexFrom, step]

/-- `repr` of an integer. -/
theorem lex_reprInt (i : Int) (cs : List Char) (h : nEnd cs = true) :
    lexFrom .start (reprInt i ++ cs) = (lexFrom .start cs).map
      ((match i with | .ofNat n => [.num n] | .negSucc n => [.minus, .num (n + 1)]) ++ ·) := by
  cases i with
  | ofNat n => exact lex_nat n cs h
  | negSucc n =>
    simp only [reprInt, List.cons_append]
    rw [show ('-' :: (Nat.toDigits 10 (n + 1) ++ cs)) = "-".toList ++ (Nat.toDigits 10 (n + 1) ++ cs) from rfl,
      lex_piece "-" rfl, lex_nat _ _ h, Option.map_map]
    rfl

/-- A text in quotes, without any escaping. -/
def plainText (s : List Char) : Bool :=
  s.all (fun c => c != '\'' && c != '\\' && c != '\n' && c != '\r')

theorem lex_plain (s acc cs : List Char) (h : plainText s = true) :
    lexFrom (.str '\'' acc) (s ++ '\'' :: cs) = (lexFrom .start cs).map (.str (acc ++ s) :: ·) := by
  induction s generalizing acc with
  | nil => simp [lexFrom, step]
  | cons c s ih =>
    simp only [plainText, List.all_cons, Bool.and_eq_true, bne_iff_ne, ne_eq] at h
    obtain ⟨⟨⟨⟨h1, h2⟩, h3⟩, h5⟩, h4⟩ := h
    simp only [List.cons_append, lexFrom, step, h1, h2, h3, h5, or_self, if_false]
    rw [map_nil_append, ih _ (by simpa [plainText] using h4)]
    simp

/-- A name in quotes, as in `get_by_label_('name')`. -/
theorem lex_quoted (s cs : List Char) (h : plainText s = true) :
    lexFrom .start ('\'' :: (s ++ '\'' :: cs)) = (lexFrom .start cs).map (.str s :: ·) := by
  have : lexFrom .start ('\'' :: (s ++ '\'' :: cs)) = lexFrom (.str '\'' []) (s ++ '\'' :: cs) := by
    simp only [lexFrom, step, quote_begin (.inl rfl)]
    rw [map_nil_append]
  rw [this, lex_plain _ _ _ h]
  rfl

/-- `=` before a text not beginning with `=`. -/
theorem lex_assign (cs : List Char) (h : cs.head? ≠ some '=') :
    lexFrom (.op '=') cs = (lexFrom .start cs).map (.assign :: ·) := by
  cases cs with
  | nil => rfl
  | cons c cs =>
    have hc : c ≠ '=' := by rintro rfl; exact h rfl
    have hd : double '=' c = none := by
      unfold double
      split <;> first | rfl | (simp_all; done)
    simp only [lexFrom, step, hd, half]
    cases begin_ c with
    | none => rfl
    | some r =>
      obtain ⟨ts, st⟩ := r
      simp only [Option.map_some, Option.map_map]
      congr 1

/-- A fixed piece of text ending in `=`. -/
theorem lex_piece_assign (s : String) {ts : List Tok} (h : run .start s.toList = some (ts, .op '=')) (cs : List Char)
    (hc : cs.head? ≠ some '=') :
    lexFrom .start (s.toList ++ cs) = (lexFrom .start cs).map (ts ++ .assign :: ·) := by
  rw [lexFrom_run _ _ _ _ _ h, lex_assign _ hc, Option.map_map]
  rfl

end Verif.Text
