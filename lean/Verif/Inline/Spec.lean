import Verif.Inline.Model
import Verif.Text.LexCode
import Verif.Text.ParseMore

/-!
# Inline: what a template means

The template is read with a name in the place of each argument.  Nothing here is code of the repository.
-/

set_option autoImplicit false

namespace Verif.Inline

open Verif.Text

/-- The name in the place of an argument; it is no name of Python. -/
def ph (key : List Char) : String := String.ofList ('{' :: key)

/-- Not such a name. -/
def plainTok : Tok → Bool
  | .name x => x.toList.head? != some '{'
  | _ => true

/-- What may follow an argument in the text: no character which would become a part of it. -/
def follow (dot : Bool) : List TPart → Bool
  | [] => true
  | .ch c :: _ => !idChar c && c != '\'' && c != '"' && (dot || c != '.')
  | .code _ :: _ => false

/-- The tokens of the template and the closing parenthesis, with names in the place of arguments.  `dot` says which
arguments may be followed by a dot. -/
def lexT (dot : List Char → Bool) : LexState → List TPart → Option (List Tok)
  | st, [] => (step st ')').bind fun (o, st') => if st' = .start ∧ o.all plainTok = true then some o else none
  | st, .ch c :: l =>
    (step st c).bind fun (o, st') => if o.all plainTok then (lexT dot st' l).map (o ++ ·) else none
  | st, .code k :: l =>
    if follow (dot k) l = true then
      match st with
      | .start => (lexT dot .start l).map (.name (ph k) :: ·)
      | .op a => (half a).bind fun t => (lexT dot .start l).map (fun ts => t :: .name (ph k) :: ts)
      | _ => none
    else none

/-- An argument: its code, how it is read, and whether lookups and calls may follow it. -/
structure Operand where
  code : String
  toks : List Tok
  tree : Ast
  prim : Bool

/-- The code is read as this operand. -/
structure Operand.Ok (o : Operand) : Prop where
  reads : Reads (!o.prim) o.code o.toks
  rd : Rd o.toks o.tree
  pr : o.prim = true → Pr o.toks o.tree

/-- What the names in a template stand for. -/
def fillOf (as : Args Operand) : Fill := fun x =>
  match x.toList with
  | '{' :: k => (as.get k).map fun o => (o.toks, o.tree, o.prim)
  | _ => none

/-- The codes of operands. -/
def Args.codes (as : Args Operand) : Args String :=
  ⟨as.args.map (·.code), as.kwargs.map fun p => (p.1, p.2.code)⟩

/-- All arguments. -/
def Args.all {α : Type} (as : Args α) : List α := as.args ++ as.kwargs.map (·.2)

/-- Which arguments may be followed by a dot. -/
def dotOf (as : Args Operand) (k : List Char) : Bool := ((as.get k).map (·.prim)).getD true

/-- The template in parentheses, with names in the place of arguments, is Python for `a`; arguments stand where operands
are expected, and lookups and calls follow only arguments which allow them. -/
def Template (code : String) (as : Args Operand) (a : Ast) : Prop :=
  ∃ l ts n, parts code = some l ∧ lexT (dotOf as) .start l = some ts ∧ safe (fillOf as) (.lpar :: ts) = true ∧
    parse n .paren ts = some (a, [])

/-- The same, computed. -/
def template (n : Nat) (code : String) (as : Args Operand) : Option Ast :=
  (parts code).bind fun l => (lexT (dotOf as) .start l).bind fun ts =>
    if safe (fillOf as) (.lpar :: ts) then
      match parse n .paren ts with
      | some (a, []) => some a
      | _ => none
    else none

theorem template_sound {n : Nat} {code : String} {as : Args Operand} {a : Ast} (h : template n code as = some a) :
    Template code as a := by
  simp only [template, Option.bind_eq_some_iff] at h
  obtain ⟨l, h1, ts, h2, h3⟩ := h
  split at h3
  · next hs =>
    split at h3
    · next hp => cases h3; exact ⟨l, ts, n, h1, h2, hs, hp⟩
    · cases h3
  · cases h3

end Verif.Inline
