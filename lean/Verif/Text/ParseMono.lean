import Verif.Text.Parse

/-!
# Text: the bound on the depth of the parser does not matter

With more depth the parser reads the same expression; so a text has at most one syntax tree.
-/

set_option autoImplicit false

namespace Verif.Text

open Lean.Order

theorem bind_mono {α β : Type} (f : P → Option α) (g : P → α → Option β) (hf : monotone f) (hg : monotone g) :
    monotone (fun r => (f r).bind (g r)) := by
  have h := monotone_bind Option f g hf hg
  simpa only [bind] using h

theorem map_mono {α β : Type} (f : P → Option α) (g : α → β) (hf : monotone f) :
    monotone (fun r => (f r).map g) := by
  have h := bind_mono f (fun _ a => some (g a)) hf (monotone_const _)
  have : (fun r => (f r).map g) = fun r => (f r).bind (fun a => some (g a)) := by
    funext r
    cases f r <;> rfl
  rw [this]
  exact h

theorem itemsNext_mono (k : Shape) (acc : List Ast) (ts : List Tok) :
    monotone (fun rec : P => itemsNext rec k acc ts) := by
  unfold itemsNext
  repeat' monotonicity

theorem pairsNext_mono (acc : List Ast) (ts : List Tok) :
    monotone (fun rec : P => pairsNext rec acc ts) := by
  unfold pairsNext
  repeat' monotonicity

theorem parseStep_mono : monotone (fun rec : P => parseStep rec) := by
  unfold parseStep
  repeat' (first
    | exact itemsNext_mono _ _ _
    | exact pairsNext_mono _ _
    | apply bind_mono
    | apply map_mono
    | monotonicity)

theorem parse_le : ∀ n : Nat, parse n ⊑ parse (n + 1)
  | 0 => fun _ _ => .bot
  | n + 1 => parseStep_mono _ _ (parse_le n)

theorem parse_succ {n : Nat} {m : Mode} {ts : List Tok} {r : Ast × List Tok} (h : parse n m ts = some r) :
    parse (n + 1) m ts = some r := by
  have := parse_le n m ts
  rw [h] at this
  generalize parse (n + 1) m ts = x at this
  cases this
  rfl

/-- More depth gives the same result. -/
theorem parse_more {n k : Nat} {m : Mode} {ts : List Tok} {r : Ast × List Tok} (h : parse n m ts = some r)
    (hk : n ≤ k) : parse k m ts = some r := by
  induction hk with
  | refl => exact h
  | step _ ih => exact parse_succ ih

theorem parses_of_parseText {n : Nat} {s : String} {a : Ast} (h : parseText n s = some a) : Parses s a := by
  unfold parseText at h
  split at h
  · cases h
  · rename_i ts hl
    split at h
    · rename_i b hp
      cases h
      exact ⟨ts, hl, n, fun k hk => parse_more hp hk⟩
    · cases h

/-- A text has at most one syntax tree. -/
theorem parses_unique {s : String} {a b : Ast} (ha : Parses s a) (hb : Parses s b) : a = b := by
  obtain ⟨ts, hl, n, hn⟩ := ha
  obtain ⟨ts', hl', m, hm⟩ := hb
  rw [hl] at hl'
  cases hl'
  have h1 := hn (n + m) (by omega)
  have h2 := hm (n + m) (by omega)
  rw [h1] at h2
  cases h2
  rfl

end Verif.Text
